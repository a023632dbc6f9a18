import Verif.Model.Idle
import Verif.Props.Tunnel
/-
Property C79: idle tunnels are closed, active ones are not.
-/
namespace Verif.Tunnel
open Verif Verif.Net

/-- The client's timer is armed, and no deadline is later than `T + 10000`. -/
def ArmedBy (T : Nat) (x : Timed) : Prop :=
  x.s.closed = none → (∃ d, x.t.cdown = some d ∧ d ≤ T + 10000) ∧ ∀ d, x.t.cup = some d → d ≤ T + 10000

theorem arm_by {T now : Nat} (h : now ≤ T) (side : Side) (src : Bool) (t : Timers)
    (hd : (∃ d, t.cdown = some d ∧ d ≤ T + 10000) ∨ (side = .up ∧ src = true) ∨ (side = .down ∧ src = false))
    (hu : ∀ d, t.cup = some d → d ≤ T + 10000) :
    (∃ d, (t.arm side src now).cdown = some d ∧ d ≤ T + 10000) ∧ ∀ d, (t.arm side src now).cup = some d → d ≤ T + 10000 := by
  cases side <;> cases src <;> simp_all [Timers.arm, tmout]

theorem armRecv_by {T now : Nat} (h : now ≤ T) (d : Dir) (side : Side) (t : Timers)
    (hd : (∃ d, t.cdown = some d ∧ d ≤ T + 10000) ∨ side = .up) (hu : ∀ d, t.cup = some d → d ≤ T + 10000) :
    (∃ d', (armRecv d side now t).cdown = some d' ∧ d' ≤ T + 10000) ∧ ∀ d', (armRecv d side now t).cup = some d' → d' ≤ T + 10000 := by
  unfold armRecv
  have h1 := arm_by h side true t (by rcases hd with hd | hd; exact Or.inl hd; exact Or.inr (Or.inl ⟨hd, rfl⟩)) hu
  split
  · exact h1
  · exact arm_by h side false _ (Or.inl h1.1) h1.2

theorem armSend_by {T now : Nat} (h : now ≤ T) (d : Dir) (side : Side) (t : Timers)
    (hd : ∃ d, t.cdown = some d ∧ d ≤ T + 10000) (hu : ∀ d, t.cup = some d → d ≤ T + 10000) :
    (∃ d', (armSend d side now t).cdown = some d' ∧ d' ≤ T + 10000) ∧ ∀ d', (armSend d side now t).cup = some d' → d' ≤ T + 10000 := by
  unfold armSend
  have h1 := arm_by h side false t (Or.inl hd) hu
  split
  · split
    · exact h1
    · exact arm_by h side true _ (Or.inl h1.1) h1.2
  · exact h1

theorem io_by {T now : Nat} (h : now ≤ T) (x : Timed) (e : Event) (he : e ≠ .timeout) (hx : ArmedBy T x) : ArmedBy T (io x now e) := by
  unfold io
  split
  · exact hx
  · next hc =>
    obtain ⟨h1, h2⟩ := hx hc
    intro hc2
    simp only at hc2
    simp only [hc2, Option.isSome_none, Bool.false_eq_true, if_false]
    cases e with
    | timeout => exact absurd rfl he
    | readable side =>
      simp only
      split
      · exact armRecv_by h _ side x.t (Or.inl h1) h2
      · exact ⟨h1, h2⟩
    | writable side =>
      simp only
      split
      · exact armSend_by h _ side x.t h1 h2
      · exact ⟨h1, h2⟩

theorem tstep_by {T : Nat} (x : Timed) (e : Nat × TEv) (h : e.1 ≤ T) (hx : ArmedBy T x) : ArmedBy T (tstep x e) := by
  obtain ⟨now, k⟩ := e
  cases k with
  | pass =>
    simp only [tstep, tick]
    split
    · exact hx
    · next hc =>
      split
      · intro hc2; simp [step, hc] at hc2
      · exact hx
  | readable s => exact io_by h x _ (by simp) hx
  | writable s => exact io_by h x _ (by simp) hx

theorem tproc_by (start : Nat) (early : List UInt8) (srcUp : List Rx) (dstUp : List Tx) (srcDown : List Rx) (dstDown : List Tx) :
    ArmedBy start (tproc start early srcUp dstUp srcDown dstDown) := by
  unfold tproc
  intro hc
  simp only at hc
  simp only [hc, Option.isSome_none, Bool.false_eq_true, if_false]
  exact armRecv_by (Nat.le_refl _) _ .up {} (Or.inr rfl) (by simp)

/-- C79: an idle tunnel is closed. Whatever happened before — data, blocked sockets, expiry passes —, if nothing is reported for a session after
time `last`, the first expiry pass ten seconds later, or any after that, finds it closed or closes it. -/
theorem c79_idle_closed (start last : Nat) (hs : start ≤ last) (early : List UInt8) (srcUp : List Rx) (dstUp : List Tx) (srcDown : List Rx)
    (dstDown : List Tx) (es : List (Nat × TEv)) (hes : ∀ e ∈ es, e.1 ≤ last) (now : Nat) (hn : last + 10000 ≤ now) :
    (trun (tproc start early srcUp dstUp srcDown dstDown) (es ++ [(now, .pass)])).s.closed ≠ none := by
  have key : ∀ (es : List (Nat × TEv)) (x : Timed), ArmedBy last x → (∀ e ∈ es, e.1 ≤ last) → ArmedBy last (trun x es) := by
    intro es
    induction es with
    | nil => intro x hx _; exact hx
    | cons e es ih => intro x hx he; exact ih _ (tstep_by x e (he e (by simp)) hx) (fun e' h' => he e' (by simp [h']))
  have h0 : ArmedBy last (tproc start early srcUp dstUp srcDown dstDown) := by
    intro hc
    obtain ⟨⟨d, h1, h2⟩, h3⟩ := tproc_by start early srcUp dstUp srcDown dstDown hc
    exact ⟨⟨d, h1, by omega⟩, fun d hd => by have := h3 d hd; omega⟩
  have h1 := key es _ h0 hes
  generalize hx : trun (tproc start early srcUp dstUp srcDown dstDown) es = x at h1
  unfold trun at hx ⊢
  rw [List.foldl_append, hx]
  simp only [List.foldl_cons, List.foldl_nil, tstep, tick]
  split
  · next hc => simp [hc]
  · next hc =>
    obtain ⟨⟨d, h2, h3⟩, -⟩ := h1 hc
    have : x.t.due now = true := by
      simp only [Timers.due, h2, Option.any_some, Bool.or_eq_true, decide_eq_true_eq]
      left; omega
    rw [if_pos this]
    simp [step, hc]

/-- The recv handler of a side is installed and there is data to read. -/
def Reads (s : Sess) (side : Side) : Prop := (s.dir side).readCb = true ∧ ∃ b bs t, (s.dir side).src = .data b bs :: t

open Classical in
/-- A history in which no ten seconds pass, up to an expiry pass, without a report on which bytes are read from one of the two
sockets; `last` is the time of the latest one. -/
def Lively (last : Nat) (x : Timed) : List (Nat × TEv) → Prop
  | [] => True
  | (now, .pass) :: es => now < last + 10000 ∧ Lively last (tstep x (now, .pass)) es
  | (now, .readable side) :: es => last ≤ now ∧ Lively (if Reads x.s side then now else last) (tstep x (now, .readable side)) es
  | (now, .writable side) :: es => last ≤ now ∧ Lively last (tstep x (now, .writable side)) es

/-- No deadline is before `T + 10000`. -/
def NotBefore (T : Nat) (t : Timers) : Prop := (∀ d, t.cdown = some d → T + 10000 ≤ d) ∧ ∀ d, t.cup = some d → T + 10000 ≤ d

theorem arm_nb {T now : Nat} (h : T ≤ now) (side : Side) (src : Bool) (t : Timers) (ht : NotBefore T t) : NotBefore T (t.arm side src now) := by
  obtain ⟨h1, h2⟩ := ht
  cases side <;> cases src <;> simp_all [Timers.arm, tmout, NotBefore]

theorem arm_both {now : Nat} (side : Side) (t : Timers) : NotBefore now ((t.arm side true now).arm side false now) := by
  cases side <;> simp [Timers.arm, tmout, NotBefore]

theorem recvLoop_reads (d : Dir) (hu : d.used = 0) {b : UInt8} {bs : List UInt8} {t : List Rx} (h : d.src = .data b bs :: t) :
    (recvLoop d).buf ≠ [] := by
  rw [recvLoop.eq_def]
  rw [dif_pos (by rw [hu]; decide)]
  split
  · next hs => rw [h] at hs; cases hs
  · next t' hs => rw [h] at hs; cases hs
  · next t' hs => rw [h] at hs; cases hs
  · next b' bs' t' hs =>
    rw [h] at hs; cases hs
    obtain ⟨x, hx, -⟩ := (recvLoop_facts { d with
        buf := d.buf ++ (b :: bs).take (cap - d.used)
        used := d.used + min (cap - d.used) (bs.length + 1)
        src := pushBack (cap - d.used) b bs t
        srcWait := false }).buf
    simp only at hx ⊢
    rw [hx, hu]
    simp [cap]

/-- C79, for sessions in which at least every ten seconds something is read from one of the two sockets: such a session is never closed by the
idle timers, whatever else happens. Missing: sessions in which the bytes that move are only written, for which this is false (counterexample
below). -/
theorem c79_active_partial (start : Nat) (early : List UInt8) (h : early.length ≤ 12288) (srcUp : List Rx) (dstUp : List Tx)
    (srcDown : List Rx) (dstDown : List Tx) (es : List (Nat × TEv))
    (hl : Lively start (tproc start early srcUp dstUp srcDown dstDown) es) :
    (trun (tproc start early srcUp dstUp srcDown dstDown) es).s.closed ≠ some .timeout := by
  have key : ∀ (es : List (Nat × TEv)) (last : Nat) (x : Timed), Lively last x es → NotBefore last x.t → x.s.closed ≠ some .timeout →
      Inv (streams early srcUp srcDown) x.s → (trun x es).s.closed ≠ some .timeout := by
    intro es
    induction es with
    | nil => intro last x _ _ hc _; exact hc
    | cons e es ih =>
      intro last x hl hnb hc hi
      obtain ⟨now, k⟩ := e
      show (trun (tstep x (now, k)) es).s.closed ≠ some .timeout
      cases hcl : x.s.closed with
      | some w =>
        -- a closed session stays as it is
        have hsame : ∀ (es : List (Nat × TEv)), trun x es = x := by
          intro es
          induction es with
          | nil => rfl
          | cons e es ih2 =>
            show trun (tstep x e) es = x
            have : tstep x e = x := by
              obtain ⟨n, k⟩ := e
              cases k <;> simp [tstep, tick, io, hcl]
            rw [this]; exact ih2
        have h1 := hsame ((now, k) :: es)
        have : trun (tstep x (now, k)) es = trun x ((now, k) :: es) := rfl
        rw [this, h1]; exact hc
      | none =>
        have stepNot : ∀ e, e ≠ .timeout → (step x.s e).closed ≠ some .timeout := by
          intro e he
          unfold step
          rw [hcl]
          cases e with
          | timeout => exact absurd rfl he
          | readable side =>
            simp only
            split
            · cases trafficRecv { x.s.dir side with srcWait := false } <;> simp [Sess.put, hcl]
            · simp [hcl]
          | writable side =>
            simp only
            split
            · cases trafficSend { x.s.dir side with dstWait := false } <;> simp [Sess.put, hcl]
            · simp [hcl]
        have hw := hi.wait hcl
        cases k with
        | pass =>
          simp only [Lively] at hl
          refine ih last _ hl.2 ?_ ?_ ?_ <;> simp only [tstep, tick, hcl]
          all_goals
            rw [if_neg (by
              obtain ⟨n1, n2⟩ := hnb
              simp only [Timers.due, Bool.or_eq_true, Option.any_eq_true, decide_eq_true_eq]
              rintro (⟨d, hd, hle⟩ | ⟨d, hd, hle⟩)
              · have := n1 d hd; omega
              · have := n2 d hd; omega)]
          · exact hnb
          · rw [hcl]; simp
          · exact hi
        | readable side =>
          simp only [Lively] at hl
          refine ih _ _ hl.2 ?_ ?_ ?_
          · simp only [tstep, io, hcl]
            by_cases hcc : (step x.s (.readable side)).closed.isSome = true
            · rw [if_pos hcc]; constructor <;> simp
            rw [if_neg hcc]
            by_cases hr : (x.s.dir side).readCb = true
            · rw [if_pos hr]
              by_cases hR : Reads x.s side
              · rw [if_pos hR]
                obtain ⟨-, b, bs, t, hsrc⟩ := hR
                have hu : (x.s.dir side).used = 0 := by
                  rcases hw side with ⟨_, _, _, h4, _⟩ | ⟨h1, _⟩
                  · exact h4
                  · rw [h1] at hr; cases hr
                have := recvLoop_reads { x.s.dir side with srcWait := false } hu hsrc
                unfold armRecv
                rw [if_neg this]
                exact arm_both side x.t
              · rw [if_neg hR]
                unfold armRecv
                split
                · exact arm_nb hl.1 side true x.t hnb
                · exact arm_nb hl.1 side false _ (arm_nb hl.1 side true x.t hnb)
            · rw [if_neg hr]
              have : ¬ Reads x.s side := fun h => hr h.1
              rw [if_neg this]
              exact hnb
          · simp only [tstep, io, hcl]
            exact stepNot _ (by simp)
          · simp only [tstep, io, hcl]
            exact step_inv hi _
        | writable side =>
          simp only [Lively] at hl
          refine ih last _ hl.2 ?_ ?_ ?_
          · simp only [tstep, io, hcl]
            split
            · constructor <;> simp
            · split
              · unfold armSend
                split
                · split
                  · exact arm_nb hl.1 side false x.t hnb
                  · exact arm_nb hl.1 side true _ (arm_nb hl.1 side false x.t hnb)
                · exact arm_nb hl.1 side false x.t hnb
              · exact hnb
          · simp only [tstep, io, hcl]
            exact stepNot _ (by simp)
          · simp only [tstep, io, hcl]
            exact step_inv hi _
  refine key es start _ hl ?_ ?_ (proc_inv early h srcUp dstUp srcDown dstDown)
  · unfold tproc
    simp only
    split
    · constructor <;> simp
    · have e0 : NotBefore start {} := by constructor <;> simp
      unfold armRecv
      split
      · exact arm_nb (Nat.le_refl _) .up true _ e0
      · exact arm_nb (Nat.le_refl _) .up false _ (arm_nb (Nat.le_refl _) .up true _ e0)
  · unfold tproc
    simp only
    show ((({ up := Dir.start early srcUp dstUp, down := Dir.start [] srcDown dstDown, closed := none } : Sess)).put .up
      (trafficRecv (Dir.start early srcUp dstUp))).closed ≠ some .timeout
    cases trafficRecv (Dir.start early srcUp dstUp) <;> simp [Sess.put]

/-- A case for `c79_active_partial`: a byte at the start, another one read five seconds later, a pass twelve seconds after the start. -/
example : Lively 0 (tproc 0 [] [.data 97 [], .again, .again, .data 98 []] [.sent 1, .sent 1] [] []) [(5000, .readable .up), (12000, .pass)] := by
  simp only [Lively]
  refine ⟨by omega, ?_, trivial⟩
  rw [if_pos ⟨by decide +kernel, 98, [], [], by decide +kernel⟩]
  omega

/-- A case for `c79_idle_closed`: a byte at the start, nothing more; a pass after ten seconds closes the session, one just before does not. -/
example : (trun (tproc 0 [] [.data 97 []] [.sent 1] [] []) [(10000, .pass)]).s.closed = some .timeout ∧
    (trun (tproc 0 [] [.data 97 []] [.sent 1] [] []) [(9999, .pass)]).s.closed = none := by decide +kernel

/-- The client-to-upstream direction while the upstream takes one byte at a time. -/
def slow (w : Bool) (data : List UInt8) (k left : Nat) : Dir :=
  { src := [], dst := (List.replicate left [.sent 1, .again]).flatten, out := data.take k, buf := data.drop k, used := data.length,
    eof := false, readCb := false, writeCb := true, srcWait := w, dstWait := true }

theorem slow_step (w : Bool) (data : List UInt8) (k left : Nat) (hk : k + 1 < data.length) :
    sendLoop { slow w data k (left + 1) with dstWait := false } = (slow w data (k + 1) left, .again) := by
  obtain ⟨b, bs, hb⟩ : ∃ b bs, data.drop k = b :: bs := by
    cases h : data.drop k with
    | nil => have := congrArg List.length h; simp at this; omega
    | cons b bs => exact ⟨b, bs, rfl⟩
  have hd : data.drop (k + 1) = bs := by
    have : data.drop (k + 1) = (data.drop k).drop 1 := by rw [List.drop_drop]
    rw [this, hb]; rfl
  have ht : data.take (k + 1) = data.take k ++ [b] := by
    have : data[k]'(by omega) = b := by
      have := List.getElem_drop (xs := data) (i := k) (j := 0) (h := by rw [hb]; simp)
      simp only [hb, List.getElem_cons_zero, Nat.add_zero] at this
      exact this.symm
    rw [List.take_succ_eq_append_getElem (by omega), this]
  have hne : bs ≠ [] := by
    rintro rfl
    have := congrArg List.length hd; simp at this; omega
  obtain ⟨c, cs, rfl⟩ := List.exists_cons_of_ne_nil hne
  rw [sendLoop.eq_def]
  simp only [slow, hb, List.replicate_succ, List.flatten_cons, List.cons_append, List.nil_append]
  rw [sendLoop.eq_def]
  simp only [List.drop_succ_cons, List.drop_zero, List.take_succ_cons, List.take_zero, hd, ht]

theorem tstep_wait (x : Timed) (t : Nat) (d : Dir) (hc : x.s.closed = none) (hw : x.s.up.writeCb = true)
    (h : trafficSend { x.s.up with dstWait := false } = .wait d) :
    tstep x (t, .writable .up) = ⟨{ x.s with up := d }, armSend { x.s.up with dstWait := false } .up t x.t⟩ := by
  have hs : step x.s (.writable .up) = { x.s with up := d } := by
    unfold step
    rw [hc]
    have : (x.s.dir .up).writeCb = true := hw
    simp only [if_pos this]
    show x.s.put .up (trafficSend { x.s.up with dstWait := false }) = _
    rw [h]; rfl
  have hn : ((step x.s (.writable .up)).closed.isSome) = false := by rw [hs]; simp [hc]
  have : (x.s.dir .up).writeCb = true := hw
  simp only [tstep, io, hc, hn, if_pos this, Bool.false_eq_true, if_false]
  rw [hs]; simp only [hc]; rfl

/-- C79 is false for a slow destination: the client sends up to 12288 bytes, the upstream takes one of them at each of the times `ts` — as
many and as close together as one likes, as long as they are not all —, and still the session is closed ten seconds after its
start: the bytes taken by then are all the upstream gets. Only the client's timer has run out: it is set anew only when the relay's
buffer has become empty. -/
theorem c79_slow_counterexample (start : Nat) (b : UInt8) (bs : List UInt8) (hb : bs.length + 1 ≤ 12288) (ts : List Nat)
    (hts : ts.length < bs.length + 1) (srcDown : List Rx) (dstDown : List Tx) :
    let x := trun (tproc start [] [.data b bs] (.again :: (List.replicate ts.length [.sent 1, .again]).flatten) srcDown dstDown)
      (ts.map (fun t => (t, TEv.writable .up)) ++ [(start + 10000, .pass)])
    x.s.closed = some .timeout ∧ x.s.up.out = (b :: bs).take ts.length := by
  have hrecv : recvLoop (Dir.start [] [.data b bs] (.again :: (List.replicate ts.length [.sent 1, .again]).flatten)) =
      { src := [], dst := .again :: (List.replicate ts.length [.sent 1, .again]).flatten, out := [], buf := b :: bs, used := bs.length + 1,
        eof := false, readCb := true, writeCb := false, srcWait := (if bs.length + 1 < cap then true else false), dstWait := true } := by
    have hmin : min cap (bs.length + 1) = bs.length + 1 := by simp only [cap]; omega
    have htake : (b :: bs).take cap = b :: bs := List.take_of_length_le (by simp [cap]; omega)
    have hpush : pushBack cap b bs [] = [] := by
      unfold pushBack
      rw [List.drop_of_length_le (by simp [cap]; omega)]
    simp only [Dir.start, List.length_nil]
    rw [recvLoop.eq_def]
    simp only
    rw [dif_pos (show 0 < cap by decide)]
    simp only [Nat.sub_zero, Nat.zero_add, hmin, htake, hpush, List.nil_append]
    rw [recvLoop.eq_def]
    by_cases hlt : bs.length + 1 < cap
    · simp [hlt]
    · simp [hlt]
  have run : ∀ (ts : List Nat) (k : Nat) (w1 : Bool) (d : Dir) (u : Option Nat), k + ts.length < bs.length + 1 →
      let x : Timed := ⟨{ up := slow w1 (b :: bs) k ts.length, down := d, closed := none }, ⟨some (start + 10000), u⟩⟩
      let y := trun x (ts.map (fun t => (t, TEv.writable .up)))
      y.s.closed = none ∧ y.t.cdown = some (start + 10000) ∧ y.s.up.out = (b :: bs).take (k + ts.length) := by
    intro ts
    induction ts with
    | nil => intro k w1 d u hk; simp [trun, slow]
    | cons t ts ih =>
      intro k w1 d u hk
      simp only [List.length_cons] at hk
      have hs' := slow_step w1 (b :: bs) k ts.length (by simp; omega)
      have hstep : tstep ⟨{ up := slow w1 (b :: bs) k (ts.length + 1), down := d, closed := none }, ⟨some (start + 10000), u⟩⟩
          (t, .writable .up) =
          ⟨{ up := slow w1 (b :: bs) (k + 1) ts.length, down := d, closed := none }, ⟨some (start + 10000), some (t + 10000)⟩⟩ := by
        have hts : trafficSend { slow w1 (b :: bs) k (ts.length + 1) with dstWait := false } =
            .wait (slow w1 (b :: bs) (k + 1) ts.length) := by
          rw [trafficSend.eq_def]
          split
          · next d1 he => rw [hs'] at he; cases he; rfl
          · next d1 he => rw [hs'] at he; cases he
          · next d1 he => rw [hs'] at he; cases he
        rw [tstep_wait _ t _ rfl rfl hts]
        simp only
        unfold armSend
        rw [hs']
        simp [Timers.arm, tmout]
      have := ih (k + 1) w1 d (some (t + 10000)) (by omega)
      simp only [List.map_cons, trun, List.foldl_cons, List.length_cons]
      rw [hstep]
      simp only [trun] at this
      refine ⟨this.1, this.2.1, ?_⟩
      rw [this.2.2]
      congr 1
      omega
  have h0 : ∃ w1 d, tproc start [] [.data b bs] (.again :: (List.replicate ts.length [.sent 1, .again]).flatten) srcDown dstDown =
      ⟨{ up := slow w1 (b :: bs) 0 ts.length, down := d, closed := none }, ⟨some (start + 10000), some (start + 10000)⟩⟩ := by
    refine ⟨if bs.length + 1 < cap then true else false, Dir.start [] srcDown dstDown, ?_⟩
    have hrcv : trafficRecv (Dir.start [] [.data b bs] (.again :: (List.replicate ts.length [.sent 1, .again]).flatten)) =
        .wait (slow (if bs.length + 1 < cap then true else false) (b :: bs) 0 ts.length) := by
      unfold trafficRecv
      simp only [hrecv]
      rw [if_neg (by simp), trafficSend.eq_def]
      have hsl : sendLoop
          { src := [], dst := .again :: (List.replicate ts.length [.sent 1, .again]).flatten, out := [], buf := b :: bs, used := bs.length + 1,
            eof := false, readCb := false, writeCb := true, srcWait := (if bs.length + 1 < cap then true else false), dstWait := true } =
          (slow (if bs.length + 1 < cap then true else false) (b :: bs) 0 ts.length, .again) := by
        rw [sendLoop.eq_def]
        simp [slow]
      split
      · next d1 he => rw [hsl] at he; cases he; rfl
      · next d1 he => rw [hsl] at he; cases he
      · next d1 he => rw [hsl] at he; cases he
    have hp : proc [] [.data b bs] (.again :: (List.replicate ts.length [.sent 1, .again]).flatten) srcDown dstDown =
        { up := slow (if bs.length + 1 < cap then true else false) (b :: bs) 0 ts.length, down := Dir.start [] srcDown dstDown,
          closed := none } := by
      unfold proc
      simp only [hrcv]
      rfl
    unfold tproc
    rw [hp]
    simp only [Option.isSome_none, Bool.false_eq_true, if_false]
    unfold armRecv
    rw [hrecv]
    simp [Timers.arm, tmout]
  obtain ⟨w1, d, h0⟩ := h0
  simp only
  rw [h0]
  obtain ⟨h1, h2, h3⟩ := run ts 0 w1 d (some (start + 10000)) (by omega)
  generalize hy : trun ⟨{ up := slow w1 (b :: bs) 0 ts.length, down := d, closed := none },
    ⟨some (start + 10000), some (start + 10000)⟩⟩ (ts.map (fun t => (t, TEv.writable .up))) = y at h1 h2 h3
  unfold trun at hy ⊢
  rw [List.foldl_append, hy]
  simp only [List.foldl_cons, List.foldl_nil, tstep, tick, h1]
  have hdue : y.t.due (start + 10000) = true := by simp [Timers.due, h2]
  rw [if_pos hdue]
  refine ⟨by simp [step, h1], ?_⟩
  simp only [step, h1]
  rw [h3]
  simp

/-- Case: three bytes; the upstream takes one after five seconds and one after nine and a half; the session is closed after ten. -/
example : (trun (tproc 0 [] [.data 1 [2, 3]] [.again, .sent 1, .again, .sent 1, .again] [] [])
    [(5000, .writable .up), (9500, .writable .up), (10000, .pass)]).s.closed = some .timeout ∧
    (trun (tproc 0 [] [.data 1 [2, 3]] [.again, .sent 1, .again, .sent 1, .again] [] [])
    [(5000, .writable .up), (9500, .writable .up), (10000, .pass)]).s.up.out = [1, 2] :=
  c79_slow_counterexample 0 1 [2, 3] (by decide) [5000, 9500] (by decide) [] []

end Verif.Tunnel
