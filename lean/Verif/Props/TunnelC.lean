import Verif.Model.TunnelC
import Verif.Props.Tunnel
import Verif.Proofs.NetSend
/-
Property C48: early data of the tunnel client.
-/
namespace Verif.TunnelC
open Verif Verif.Net Verif.Tunnel

theorem cRecv_spec (cache : List UInt8) (src : List Rx) (hc : cache.length ≤ cap) :
    (cRecv cache src).2.1 ++ streamOf (cRecv cache src).2.2 = cache ++ streamOf src ∧ (cRecv cache src).2.1.length ≤ cap ∧
    ((cRecv cache src).1 = some .cacheFull → (cRecv cache src).2.1.length = cap) ∧
    ((cRecv cache src).1 = some .localEnd → streamOf (cRecv cache src).2.2 = [] ∧ failsAtEnd (cRecv cache src).2.2 = true) ∧
    (cRecv cache src).1 ≠ some .upstream := by
  fun_induction cRecv cache src with
  | case1 cache h => simp; omega
  | case2 cache h t => simp [streamOf]; omega
  | case3 cache h t => simp [streamOf, failsAtEnd]; omega
  | case4 cache h b bs t ih =>
    obtain ⟨h1, h2, h3, h4, h5⟩ := ih (by simp only [List.length_append, List.length_take]; omega)
    refine ⟨?_, h2, h3, h4, h5⟩
    rw [h1, List.append_assoc, streamOf_pushBack]
  | case5 cache src h => simp; omega

/-- The session in every phase: header bytes out and left, cached bytes and unread bytes; the relay runs from a state `proc` made of them. -/
def K (hdr stream : List UInt8) (c : C) : Prop :=
  c.cache.length ≤ cap ∧
  match c.phase with
  | .connecting => Auth.clientHeader c.key = hdr ∧ c.wire = [] ∧ c.cache ++ streamOf c.src = stream
  | .auth left => c.wire ++ left = hdr ∧ c.cache ++ streamOf c.src = stream
  | .relay s => c.wire = hdr ∧ ∃ src es, c.cache ++ streamOf src = stream ∧ s = Tunnel.run (proc c.cache src c.dstUp c.srcDown c.dstDown) es
  | .closed w => c.wire <+: hdr ∧ c.cache ++ streamOf c.src = stream ∧ (w = .cacheFull → c.cache.length = cap) ∧
      (w = .localEnd → streamOf c.src = [] ∧ failsAtEnd c.src = true)

theorem sendChains_length (c : List (List UInt8)) (l : List SysTx) : (sendChains c l).chain.length = c.length := by
  fun_induction sendChains c l with
  | case1 c l h => rfl
  | case2 c l p x q hc r hs => rfl
  | case3 c l p x q hc r hs => rfl
  | case4 c l p x q hc n r hs o ih =>
    obtain ⟨h1, _⟩ := firstUnsent_some hc
    show (sendChains (p ++ x.drop n :: q) r).chain.length = c.length
    rw [ih, h1]
    simp

theorem authSend_K {hdr stream : List UInt8} {c : C} {left : List UInt8} (hc : c.cache.length ≤ cap) (h1 : c.wire ++ left = hdr)
    (h2 : c.cache ++ streamOf c.src = stream) : K hdr stream (authSend c left) := by
  obtain ⟨s1, s2, s3⟩ := sendChains_spec [left] c.tx
  simp only [List.flatten_cons, List.flatten_nil, List.append_nil] at s1
  refine ⟨by unfold authSend; dsimp only; split <;> exact hc, ?_⟩
  unfold authSend
  dsimp only
  cases hrc : (sendChains [left] c.tx).rc with
  | again =>
    dsimp only
    refine ⟨?_, h2⟩
    have hl : (sendChains [left] c.tx).chain.length = 1 := sendChains_length [left] c.tx
    match hch : (sendChains [left] c.tx).chain, hl with
    | [x], _ =>
      rw [hch] at s1
      simp only [List.flatten_cons, List.flatten_nil, List.append_nil] at s1
      rw [List.headD_cons, List.append_assoc, s1, h1]
  | fail =>
    dsimp only
    refine ⟨?_, h2, by simp, by simp⟩
    rw [← h1]
    generalize hw : (sendChains [left] c.tx).wire = w at s1 ⊢
    rw [← s1, ← List.append_assoc]
    exact List.prefix_append _ _
  | done =>
    dsimp only
    have := s2.mp hrc
    rw [this, List.append_nil] at s1
    exact ⟨by rw [s1, h1], c.src, [], h2, rfl⟩

theorem step_K {hdr stream : List UInt8} {c : C} (h : K hdr stream c) (e : Ev) : K hdr stream (step c e) := by
  obtain ⟨ph, cache, src, tx, wire, key, dstUp, srcDown, dstDown⟩ := c
  obtain ⟨hc, hp⟩ := h
  have hr := cRecv_spec cache src hc
  have local' : ∀ p, (∀ q r, q ++ streamOf r = cache ++ streamOf src → q.length ≤ cap → K hdr stream ⟨p, q, r, tx, wire, key, dstUp, srcDown, dstDown⟩) →
      wire <+: hdr → cache ++ streamOf src = stream →
      K hdr stream ⟨match (cRecv cache src).1 with
        | none => p
        | some w => .closed w, (cRecv cache src).2.1, (cRecv cache src).2.2, tx, wire, key, dstUp, srcDown, dstDown⟩ := by
    intro p hk hw hs
    obtain ⟨h1, h2, h3, h4, _⟩ := hr
    cases hx : (cRecv cache src).1 with
    | none => exact hk _ _ h1 h2
    | some w =>
      rw [hx] at h3 h4
      exact ⟨h2, hw, by rw [h1, hs], fun h => h3 (by rw [h]), fun h => h4 (by rw [h])⟩
  cases ph with
  | connecting =>
    obtain ⟨k1, k2, k3⟩ := hp
    dsimp only at k1 k2 k3
    cases e with
    | localReadable =>
      exact local' .connecting (fun q r hq hl => ⟨hl, k1, k2, by dsimp only; rw [hq, k3]⟩) (by rw [k2]; exact List.nil_prefix) k3
    | established => exact authSend_K (left := Auth.clientHeader key) hc (by dsimp only; rw [k2, k1]; rfl) k3
    | upFail => exact ⟨hc, (by rw [k2]; exact List.nil_prefix : wire <+: hdr), k3, by simp, by simp⟩
    | upWritable => exact ⟨hc, k1, k2, k3⟩
    | relay e => exact ⟨hc, k1, k2, k3⟩
  | auth left =>
    obtain ⟨k1, k2⟩ := hp
    dsimp only at k1 k2
    have kp : wire <+: hdr := by rw [← k1]; exact List.prefix_append _ _
    cases e with
    | localReadable => exact local' (.auth left) (fun q r hq hl => ⟨hl, k1, by dsimp only; rw [hq, k2]⟩) kp k2
    | established => exact ⟨hc, k1, k2⟩
    | upFail => exact ⟨hc, kp, k2, by simp, by simp⟩
    | upWritable => exact authSend_K hc k1 k2
    | relay e => exact ⟨hc, k1, k2⟩
  | relay s =>
    obtain ⟨k1, src0, es, k2, k3⟩ := hp
    cases e with
    | relay e =>
      refine ⟨hc, k1, src0, es ++ [e], k2, ?_⟩
      show Tunnel.step s e = Tunnel.run (proc cache src0 dstUp srcDown dstDown) (es ++ [e])
      have k3' : s = Tunnel.run (proc cache src0 dstUp srcDown dstDown) es := k3
      rw [Tunnel.run] at k3' ⊢
      rw [List.foldl_append, ← k3']
      rfl
    | _ => exact ⟨hc, k1, src0, es, k2, k3⟩
  | closed w => cases e <;> exact ⟨hc, hp⟩

theorem run_K {hdr stream : List UInt8} {c : C} (h : K hdr stream c) (es : List Ev) : K hdr stream (run c es) := by
  induction es generalizing c with
  | nil => exact h
  | cons e es ih => exact ih (step_K h e)

theorem start_K (key : List UInt8) (src : List Rx) (tx : List SysTx) (dstUp : List Tx) (srcDown : List Rx) (dstDown : List Tx) :
    K (Auth.clientHeader key) (streamOf src) (start key src tx dstUp srcDown dstDown) :=
  ⟨Nat.zero_le _, rfl, rfl, rfl⟩

/-- C48, order. Under every schedule of events and every sequence of socket results, what goes to the tunnel server is a prefix of the
authentication header followed by the local program's stream: nothing is lost in between, repeated, reordered or invented, and no data byte
is sent before the whole header. Missing: what the TLS layer does to callbacks and interest
(C102). -/
theorem c48_order_partial (key : List UInt8) (src : List Rx) (tx : List SysTx) (dstUp : List Tx) (srcDown : List Rx) (dstDown : List Tx)
    (es : List Ev) :
    sent (run (start key src tx dstUp srcDown dstDown) es) <+: Auth.clientHeader key ++ streamOf src := by
  have h := run_K (start_K key src tx dstUp srcDown dstDown) es
  obtain ⟨hc, hp⟩ := h
  unfold sent
  generalize run (start key src tx dstUp srcDown dstDown) es = c at hc hp
  obtain ⟨ph, cache, src', tx', wire, key', dstUp', srcDown', dstDown'⟩ := c
  cases ph with
  | connecting => rw [show wire = [] from hp.2.1]; exact List.nil_prefix
  | auth left => rw [← show wire ++ left = _ from hp.1, List.append_assoc]; exact List.prefix_append _ _
  | closed w => exact List.IsPrefix.trans hp.1 (List.prefix_append _ _)
  | relay s =>
    obtain ⟨k1, src0, es', k2, k3⟩ := hp
    dsimp only at k1 k2 k3 hc ⊢
    rw [k1, k3, ← k2]
    exact (List.prefix_append_right_inj _).mpr (c07_relay_prefix_partial cache hc src0 dstUp' srcDown' dstDown' es' .up)

/-- C48, delivery. Once the relay has started it began with the cached early data: as long as the session stays open and the server takes
data, after finitely many readiness reports the server has received the header and the complete stream. -/
theorem c48_delivery_partial (key : List UInt8) (src : List Rx) (tx : List SysTx) (dstUp : List Tx) (srcDown : List Rx) (dstDown : List Tx)
    (es : List Ev) (s : Sess) (hs : (run (start key src tx dstUp srcDown dstDown) es).phase = .relay s) (hopen : s.closed = none)
    (htake : canTake (streamOf src).length s.up.dst) :
    ∃ k, sent (run (start key src tx dstUp srcDown dstDown) (es ++ (rounds .up k).map .relay)) = Auth.clientHeader key ++ streamOf src := by
  have h := run_K (start_K key src tx dstUp srcDown dstDown) es
  obtain ⟨hc, hp⟩ := h
  refine ⟨blocks s.up + 1, ?_⟩
  unfold run at hs hp hc ⊢
  rw [List.foldl_append]
  generalize List.foldl step (start key src tx dstUp srcDown dstDown) es = c at hc hp hs
  obtain ⟨ph, cache, src', tx', wire, key', dstUp', srcDown', dstDown'⟩ := c
  subst hs
  obtain ⟨k1, src0, es', k2, k3⟩ := hp
  dsimp only at k1 k2 k3 hc
  have fold : ∀ (l : List Event) (s : Sess), List.foldl step ⟨.relay s, cache, src', tx', wire, key', dstUp', srcDown', dstDown'⟩ (l.map Ev.relay) =
      ⟨.relay (Tunnel.run s l), cache, src', tx', wire, key', dstUp', srcDown', dstDown'⟩ := by
    intro l
    induction l with
    | nil => intro s; rfl
    | cons a l ih => intro s; exact ih (Tunnel.step s a)
  rw [fold]
  show wire ++ (Tunnel.run s _).up.out = _
  subst k3
  have := c08_delivery_partial cache hc src0 dstUp' srcDown' dstDown' es' .up hopen (by
    show canTake (cache ++ streamOf src0).length _; rw [k2]; exact htake) _ (Nat.lt_succ_self _)
  have h2 : (Tunnel.run _ (rounds .up (blocks (Tunnel.run (proc cache src0 dstUp' srcDown' dstDown') es').up + 1))).up.out =
    cache ++ streamOf src0 := this.1
  rw [h2, k1, k2]

/-- C48, giving up. While the server is not reached the client never holds more than 12288 bytes. When it closes the session before the
relay started, then the cache is exactly full, or the local program's stream has ended, or the upstream connection failed. -/
theorem c48_bounded (key : List UInt8) (src : List Rx) (tx : List SysTx) (dstUp : List Tx) (srcDown : List Rx) (dstDown : List Tx)
    (es : List Ev) :
    let c := run (start key src tx dstUp srcDown dstDown) es
    c.cache.length ≤ 12288 ∧ ∀ w, c.phase = .closed w →
      (w = .cacheFull → c.cache.length = 12288 ∧ 12288 ≤ (streamOf src).length) ∧
      (w = .localEnd → c.cache = streamOf src) := by
  have h := run_K (start_K key src tx dstUp srcDown dstDown) es
  obtain ⟨hc, hp⟩ := h
  dsimp only
  generalize run (start key src tx dstUp srcDown dstDown) es = c at hc hp
  obtain ⟨ph, cache, src', tx', wire, key', dstUp', srcDown', dstDown'⟩ := c
  refine ⟨hc, ?_⟩
  intro w hw
  dsimp only at hw
  subst hw
  obtain ⟨_, k2, k3, k4⟩ := hp
  dsimp only at k2 k3 k4 ⊢
  refine ⟨fun h => ⟨k3 h, ?_⟩, fun h => ?_⟩
  · rw [← k2, List.length_append, k3 h]; show cap ≤ _; omega
  · rw [← k2, (k4 h).1, List.append_nil]

theorem cRecv_end (cache bs : List UInt8) (b : UInt8) (h : cache.length + bs.length + 1 < cap) :
    cRecv cache [.data b bs, .fail] = (some .localEnd, cache ++ b :: bs, [.fail]) := by
  rw [cRecv, dif_pos (by omega)]
  have e1 : (b :: bs).take (cap - cache.length) = b :: bs := List.take_of_length_le (by simp only [List.length_cons]; omega)
  have e2 : (b :: bs).drop (cap - cache.length) = [] := List.drop_of_length_le (by simp only [List.length_cons]; omega)
  rw [e1, pushBack, e2]
  dsimp only
  rw [cRecv, dif_pos (by simp only [List.length_append, List.length_cons]; omega)]

theorem cRecv_full (cache : List UInt8) (src : List Rx) (h : (cRecv cache src).2.1.length = cap) : (cRecv cache src).1 = some .cacheFull := by
  fun_induction cRecv cache src with
  | case1 cache hl => exact absurd h (by show cache.length ≠ cap; omega)
  | case2 cache hl t => exact absurd h (by show cache.length ≠ cap; omega)
  | case3 cache hl t => exact absurd h (by show cache.length ≠ cap; omega)
  | case4 cache hl b bs t ih => exact ih h
  | case5 cache src hl => rfl

theorem step_full {c : C} (h : c.cache.length = cap → c.phase = .closed .cacheFull) (e : Ev) :
    (step c e).cache.length = cap → (step c e).phase = .closed .cacheFull := by
  obtain ⟨ph, cache, src, tx, wire, key, dstUp, srcDown, dstDown⟩ := c
  have local' : ∀ p : Phase, (cRecv cache src).2.1.length = cap → (match (cRecv cache src).1 with
      | none => p
      | some w => .closed w) = .closed .cacheFull := by
    intro p hf
    rw [cRecv_full cache src hf]
  have send' : ∀ c : C, ∀ left, (authSend c left).cache = c.cache := by
    intro c left; unfold authSend; dsimp only; split <;> rfl
  cases ph with
  | connecting =>
    cases e with
    | localReadable => exact local' _
    | established => intro hf; exact absurd (h (by rw [← hf]; exact (congrArg List.length (send' _ _)).symm)) (by simp)
    | upFail => intro hf; exact absurd (h hf) (by simp)
    | upWritable => exact h
    | relay e => exact h
  | auth left =>
    cases e with
    | localReadable => exact local' _
    | upWritable => intro hf; exact absurd (h (by rw [← hf]; exact (congrArg List.length (send' _ _)).symm)) (by simp)
    | upFail => intro hf; exact absurd (h hf) (by simp)
    | established => exact h
    | relay e => exact h
  | relay s => cases e <;> intro hf <;> exact absurd (h hf) (by simp)
  | closed w => cases e <;> exact h

/-- C48, full cache: at every moment of every schedule the cache is full if and only if the session was closed for that reason; so no session
goes on with a full cache, where data could be dropped, and none is closed for want of room that there is. -/
theorem c48_full (key : List UInt8) (src : List Rx) (tx : List SysTx) (dstUp : List Tx) (srcDown : List Rx) (dstDown : List Tx) (es : List Ev) :
    (run (start key src tx dstUp srcDown dstDown) es).cache.length = 12288 ↔
    (run (start key src tx dstUp srcDown dstDown) es).phase = .closed .cacheFull := by
  constructor
  · have : ∀ (es : List Ev) (c : C), (c.cache.length = cap → c.phase = .closed .cacheFull) →
        (run c es).cache.length = cap → (run c es).phase = .closed .cacheFull := by
      intro es
      induction es with
      | nil => exact fun c h => h
      | cons e es ih => exact fun c h => ih (step c e) (step_full h e)
    exact this es _ (fun h => absurd h (by show (0 : Nat) ≠ 4096 * 3; omega))
  · intro h
    have hk := run_K (start_K key src tx dstUp srcDown dstDown) es
    have := hk.2
    rw [h] at this
    exact this.2.2.1 rfl

/-- A local program that sends 12288 bytes at once while the connection is made. -/
example (key bs : List UInt8) (hb : bs.length = 12287) :
    (run (start key [.data 7 bs] [] [] [] []) [.localReadable]).phase = .closed .cacheFull := by
  rw [← c48_full]
  show (cRecv [] [.data 7 bs]).2.1.length = 12288
  have e : ([] ++ (7 :: bs).take (cap - ([] : List UInt8).length)).length = 12288 := by
    rw [List.nil_append, List.length_take, List.length_cons, hb]; rfl
  rw [cRecv.eq_def, dif_pos (by decide)]
  dsimp only
  rw [cRecv.eq_def, dif_neg (by rw [e]; decide)]
  exact e

/-- C48, counterexample: a local program that sends a request of any length below the cache size and then shuts down its sending side (as
`nc -N` or an HTTP/1.0 client does) before the server is reached loses it: the session is closed, whatever happens later nothing of the request
is sent, although the upstream connection may well be established by the next event. -/
theorem c48_half_close_counterexample (key : List UInt8) (b : UInt8) (bs : List UInt8) (h : bs.length + 1 < 12288) (tx : List SysTx)
    (dstUp : List Tx) (srcDown : List Rx) (dstDown : List Tx) (es : List Ev) :
    let c := run (start key [.data b bs, .fail] tx dstUp srcDown dstDown) (.localReadable :: es)
    c.phase = .closed .localEnd ∧ c.cache = b :: bs ∧ sent c = [] := by
  have hc : ∀ (c : C) (w : Why) (es : List Ev), c.phase = .closed w → List.foldl step c es = c := by
    intro c w es hw
    induction es with
    | nil => rfl
    | cons e es ih =>
      have : step c e = c := by unfold step; rw [hw]
      rw [List.foldl_cons, this, ih]
  have hr := cRecv_end [] bs b (by show 0 + _ + 1 < 12288; omega)
  have h1 : step (start key [.data b bs, .fail] tx dstUp srcDown dstDown) .localReadable =
      ⟨.closed .localEnd, b :: bs, [.fail], tx, [], key, dstUp, srcDown, dstDown⟩ := by
    show (⟨_, _, _, _, _, _, _, _, _⟩ : C) = _
    simp only [start]
    rw [hr]
    rfl
  dsimp only
  rw [run, List.foldl_cons, h1, hc _ .localEnd es rfl]
  exact ⟨rfl, rfl, rfl⟩

/-- Concrete cases (`c48_order_partial`, `c48_delivery_partial`, `c48_bounded`): early data, a header that is sent in two parts, then the relay: header, early data and later data in order. -/
example :
    let c := run (start [1, 2, 3] [.data 7 [8], .again, .data 9 []] [.ok 10, .eagain, .ok 26] [.sent 5, .sent 5] [] [])
      [.localReadable, .established, .upWritable]
    sent c = Auth.clientHeader [1, 2, 3] ++ [7, 8, 9] := by decide +kernel

example : (run (start [1, 2, 3] [.data 7 [8], .again, .data 9 []] [.ok 10, .eagain, .ok 26] [.sent 5, .sent 5] [] [])
      [.localReadable, .established]).phase = .auth ((Auth.clientHeader [1, 2, 3]).drop 10) := by decide +kernel

end Verif.TunnelC
