import Verif.Spec.WebSend
import Verif.Proofs.Web
import Verif.Proofs.NetSend
/-
Sending a response from the event loop: lemmas.
-/
namespace Verif.WebSend
open Verif Verif.Spec.WebSend
open Verif.TlsRelay (Wr SendRes)
open Verif.Web (FfInv)

/-! ### Data -/

theorem write_wcb (s : Ssl.S) (x : Ssl.Res) : (Ssl.write s x).wcb = s.wcb := by
  cases x <;> simp only [Ssl.write, Ssl.cache, Ssl.restoreR, Ssl.restoreTyp]
  split <;> split <;> rfl

theorem onWrite_wcb (w : W) (x : Ssl.Res) : (onWrite w x).t.wcb = w.t.wcb := by
  unfold onWrite mod
  split
  · split <;> split <;> simp [write_wcb]
  · split <;> rfl

/-- Everything of a connection that sending does not touch. -/
def Same (v w : W) : Prop := v.body = w.body ∧ v.fin = w.fin ∧ v.mem = w.mem ∧ v.tls = w.tls ∧ v.peek = w.peek ∧ v.t.wcb = w.t.wcb

theorem Same.refl (w : W) : Same w w := ⟨rfl, rfl, rfl, rfl, rfl, rfl⟩
theorem Same.trans {u v w : W} (h : Same u v) (k : Same v w) : Same u w :=
  ⟨h.1.trans k.1, h.2.1.trans k.2.1, h.2.2.1.trans k.2.2.1, h.2.2.2.1.trans k.2.2.2.1, h.2.2.2.2.1.trans k.2.2.2.2.1, h.2.2.2.2.2.trans k.2.2.2.2.2⟩

theorem onWrite_same (w : W) (x : Ssl.Res) : Same (onWrite w x) w := by
  have := onWrite_keep w x
  exact ⟨this.2.2.2.2.1, this.2.2.2.2.2.1, this.2.2.2.2.2.2.1, this.2.2.2.2.2.2.2.1, this.2.2.2.2.2.2.2.2, onWrite_wcb w x⟩

theorem chainLoop_data (w : W) : Same (chainLoop w).1 w ∧ (chainLoop w).1.ff = w.ff ∧ (chainLoop w).1.rd = w.rd ∧
    (chainLoop w).1.out ++ (chainLoop w).1.chain.flatten = w.out ++ w.chain.flatten ∧
    ((chainLoop w).2 = .drained ↔ (chainLoop w).1.chain.flatten = []) := by
  fun_induction chainLoop w with
  | case1 w h => exact ⟨.refl _, rfl, rfl, rfl, by simp [Net.firstUnsent_none.mp h]⟩
  | case2 w p x q h hd =>
    obtain ⟨h1, h2, h3⟩ := Net.firstUnsent_some h
    obtain ⟨k1, k2, k3, k4, -⟩ := onWrite_keep w .wantW
    exact ⟨onWrite_same _ _, k2, k1, by rw [k3, k4], by rw [k3, h1]; simp [h2, h3]⟩
  | case3 w p x q h r ds hd =>
    obtain ⟨h1, h2, h3⟩ := Net.firstUnsent_some h
    obtain ⟨k1, k2, k3, k4, -⟩ := onWrite_keep { w with dst := ds } (if r then .wantR else .wantW)
    exact ⟨onWrite_same _ _, k2, k1, by rw [k3, k4], by rw [k3]; simp only [h1]; simp [h2, h3]⟩
  | case4 w p x q h ds hd =>
    obtain ⟨h1, h2, h3⟩ := Net.firstUnsent_some h
    obtain ⟨k1, k2, k3, k4, -⟩ := onWrite_keep w .err
    exact ⟨onWrite_same _ _, k2, k1, by rw [k3, k4], by rw [k3, h1]; simp [h2, h3]⟩
  | case5 w p x q h n ds hd ih =>
    obtain ⟨h1, h2, h3⟩ := Net.firstUnsent_some h
    obtain ⟨k1, k2, k3, k4, -⟩ := onWrite_keep { w with dst := ds, chain := p ++ x.drop n :: q, out := w.out ++ x.take n } .ok
    obtain ⟨i1, i2, i3, i4, i5⟩ := ih
    refine ⟨i1.trans (onWrite_same _ _), i2.trans k2, i3.trans k1, ?_, i5⟩
    rw [i4, k3, k4, h1]
    simp [h2]
    rw [← List.append_assoc (List.take n x), List.take_append_drop]

theorem ffSend_data {w w1 : W} {r : SendRes} (h : ffSend w = (w1, r)) :
    Same w1 w ∧ w1.rd = w.rd ∧ w1.chain = w.chain ∧
    ((r ≠ .drained ∧ w1.ff = w.ff ∧ w1.out = w.out ∧ w.ff.buf ≠ []) ∨
     (r = .drained ∧ ∃ n, w1.ff = { w.ff with buf := w.ff.buf.drop n, fsend := w.ff.fsend + min n w.ff.buf.length } ∧ w1.out = w.out ++ w.ff.buf.take n)) := by
  unfold ffSend at h
  split at h
  · rename_i hb; cases h; exact ⟨.refl _, rfl, rfl, .inr ⟨rfl, 0, by simp, by simp⟩⟩
  · rename_i hb
    split at h <;> cases h
    · have := onWrite_keep w .wantW; exact ⟨onWrite_same _ _, this.1, this.2.2.1, .inl ⟨by simp, this.2.1, this.2.2.2.1, hb⟩⟩
    · rename_i r ds hd
      have := onWrite_keep { w with dst := ds } (if r then .wantR else .wantW)
      exact ⟨onWrite_same _ _, this.1, this.2.2.1, .inl ⟨by simp, this.2.1, this.2.2.2.1, hb⟩⟩
    · have := onWrite_keep w .err; exact ⟨onWrite_same _ _, this.1, this.2.2.1, .inl ⟨by simp, this.2.1, this.2.2.2.1, hb⟩⟩
    · rename_i n ds hd
      have := onWrite_keep { w with
        dst := ds
        ff := { w.ff with buf := w.ff.buf.drop n, fsend := w.ff.fsend + min n w.ff.buf.length }
        out := w.out ++ w.ff.buf.take n } .ok
      exact ⟨onWrite_same _ _, this.1, this.2.2.1, .inr ⟨rfl, n, this.2.1, this.2.2.2.1⟩⟩

theorem FfInv.send {file s : List UInt8} {st : Web.Ff} (h : FfInv file s st) (n : Nat) :
    FfInv file (s ++ st.buf.take n) { st with buf := st.buf.drop n, fsend := st.fsend + min n st.buf.length } := by
  obtain ⟨h1, h2, h3⟩ := h
  refine ⟨?_, ?_, h3⟩
  · simp only [List.append_assoc, List.take_append_drop]; exact h1
  · simp only [List.length_append, List.length_take, h2]

/-- What was sent of the file so far. -/
def FileAt (H file : List UInt8) (w : W) : Prop := ∃ s, w.out = H ++ s ∧ FfInv file s w.ff

theorem FileAt.prefix {H file : List UInt8} {w : W} (h : FileAt H file w) : w.out <+: H ++ file := by
  obtain ⟨s, e, h1, -, -⟩ := h
  rw [e, List.prefix_append_right_inj]
  exact (List.prefix_append s w.ff.buf).trans (h1 ▸ List.take_prefix _ _)

theorem ffLoop_data (H file : List UInt8) (fsize : Int) (w : W) (h : FileAt H file w) :
    Same (ffLoop file fsize w).1 w ∧ FileAt H file (ffLoop file fsize w).1 ∧
    ((ffLoop file fsize w).2 = .drained → H.length + fsize ≤ (ffLoop file fsize w).1.out.length) ∧
    ((ffLoop file fsize w).2 = .again → (ffLoop file fsize w).1.ff.buf ≠ []) := by
  fun_induction ffLoop file fsize w with
  | case1 w w1 hs =>
    obtain ⟨k1, k2, k3, k4⟩ := ffSend_data hs
    rcases k4 with ⟨-, k4, k5, k6⟩ | ⟨k4, -⟩
    · obtain ⟨s, e, i⟩ := h
      exact ⟨k1, ⟨s, by rw [k5, e], by rw [k4]; exact i⟩, by simp, fun _ => by simp only; rw [k4]; exact k6⟩
    · simp at k4
  | case2 w w1 hs =>
    obtain ⟨k1, k2, k3, k4⟩ := ffSend_data hs
    rcases k4 with ⟨-, k4, k5, k6⟩ | ⟨k4, -⟩
    · obtain ⟨s, e, i⟩ := h
      exact ⟨k1, ⟨s, by rw [k5, e], by rw [k4]; exact i⟩, by simp, by simp⟩
    · simp at k4
  | case3 w w1 hs hr =>
    obtain ⟨k1, k2, k3, k4⟩ := ffSend_data hs
    rcases k4 with ⟨k4, -⟩ | ⟨-, n, k4, k5⟩
    · exact absurd rfl k4
    · obtain ⟨s, e, i⟩ := h
      have i1 := FfInv.send i n
      rw [← k4] at i1
      have := (Web.ffRead_inv i1 hr).1 rfl
      refine ⟨k1, ⟨_, by rw [k5, e, List.append_assoc], i1⟩, fun _ => ?_, by simp⟩
      simp only [k5, e, List.length_append] at this ⊢
      omega
  | case4 w w1 hs z hz hr =>
    obtain ⟨k1, k2, k3, k4⟩ := ffSend_data hs
    rcases k4 with ⟨k4, -⟩ | ⟨-, n, k4, k5⟩
    · exact absurd rfl k4
    · obtain ⟨s, e, i⟩ := h
      have i1 := FfInv.send i n
      rw [← k4] at i1
      exact ⟨k1, ⟨_, by rw [k5, e, List.append_assoc], i1⟩, by simp, by simp⟩
  | case5 w w1 hs o hr ih =>
    obtain ⟨k1, k2, k3, k4⟩ := ffSend_data hs
    rcases k4 with ⟨k4, -⟩ | ⟨-, n, k4, k5⟩
    · exact absurd rfl k4
    · obtain ⟨s, e, i⟩ := h
      have i1 := FfInv.send i n
      rw [← k4] at i1
      have i2 := (Web.ffRead_inv i1 hr).2 o rfl
      obtain ⟨j1, j2, j3, j4⟩ := ih ⟨s ++ w.ff.buf.take n, by simp only [k5, e, List.append_assoc], i2⟩
      exact ⟨j1.trans k1, j2, j3, j4⟩

/-- An open connection in the middle of a response: which handler continues, and what it has sent so far. -/
def At (H : List UInt8) (b : Body) (w : W) : Prop :=
  w.body = b ∧
  ((w.t.wcb = some (.app 1) ∧ w.out ++ w.chain.flatten = H ∧ w.ff = {} ∧ w.chain.flatten ≠ []) ∨
   (w.t.wcb = some (.app 2) ∧ ∃ f n, b = .file f n ∧ 0 < n ∧ FileAt H f w ∧ w.ff.buf ≠ []) ∨
   (w.t.wcb = some (.app 3) ∧ ∃ p, b = .api p ∧ w.out ++ w.chain.flatten = H ++ p ∧ w.chain.flatten ≠ []))

/-- What holds of a response at any time. -/
def Ok (hdr : List (List UInt8)) (b : Body) (w : W) : Prop :=
  (w.fin = none → At hdr.flatten b w) ∧ w.out <+: whole hdr b ∧ (w.fin = some .done → Sized b → w.out = whole hdr b)

theorem ffCall_ok {hdr : List (List UInt8)} {f : List UInt8} {n : Int} (hn : 0 < n) {w : W} (hw : w.t.wcb = some (.app 2)) (hb : w.body = .file f n)
    (hf : w.fin = none) (h : FileAt hdr.flatten f w) : Ok hdr (.file f n) (ffCall f n w) := by
  have hd := ffLoop_data hdr.flatten f n w h
  unfold ffCall
  split <;> rename_i w1 he <;> rw [he] at hd <;> obtain ⟨k1, k2, k3, k4⟩ := hd
  · refine ⟨fun _ => ⟨k1.1.trans hb, .inr (.inl ⟨k1.2.2.2.2.2.trans hw, f, n, rfl, hn, k2, k4 rfl⟩)⟩, ?_, ?_⟩
    · simp only [whole]; rw [if_pos hn]; exact k2.prefix
    · have := k1.2.1.trans hf
      simp only at this
      simp [this]
  · refine ⟨by simp [finish], ?_, by simp [finish]⟩
    simp only [whole, finish]; rw [if_pos hn]; exact k2.prefix
  · refine ⟨by simp [finish], ?_, fun _ hs => ?_⟩
    · simp only [whole, finish]; rw [if_pos hn]; exact k2.prefix
    · simp only [whole, finish]; rw [if_pos hn]
      refine k2.prefix.eq_of_length_le ?_
      have := k3 rfl
      simp only [Sized] at hs
      simp only [List.length_append] at this ⊢
      omega

theorem apiCall_ok {hdr : List (List UInt8)} {p : List UInt8} {w : W} (hw : w.t.wcb = some (.app 3)) (hb : w.body = .api p)
    (hf : w.fin = none) (h : w.out ++ w.chain.flatten = hdr.flatten ++ p) : Ok hdr (.api p) (apiCall w) := by
  have hd := chainLoop_data w
  unfold apiCall
  rw [h] at hd
  split <;> rename_i w1 he <;> rw [he] at hd <;> obtain ⟨k1, k2, k3, k4, k5⟩ := hd <;> simp only at k1 k2 k3 k4 k5
  · refine ⟨fun _ => ⟨k1.1.trans hb, .inr (.inr ⟨k1.2.2.2.2.2.trans hw, p, rfl, k4, fun e => by simp [e] at k5⟩)⟩, ?_, ?_⟩
    · simp only [whole, ← k4]; exact List.prefix_append _ _
    · simp [k1.2.1, hf]
  · refine ⟨by simp [finish], ?_, by simp [finish]⟩
    simp only [whole, finish, ← k4]; exact List.prefix_append _ _
  · refine ⟨by simp [finish], ?_, fun _ _ => ?_⟩
    · simp only [whole, finish, ← k4]; exact List.prefix_append _ _
    · simp only [whole, finish, ← k4, k5.mp trivial, List.append_nil]

theorem hdrCall_ok {hdr : List (List UInt8)} {b : Body} {w : W} (hw : w.t.wcb = some (.app 1)) (hb : w.body = b)
    (hf : w.fin = none) (h : w.out ++ w.chain.flatten = hdr.flatten) (hff : w.ff = {}) : Ok hdr b (hdrCall w) := by
  have hd := chainLoop_data w
  unfold hdrCall
  rw [h] at hd
  have hp : ∀ o : List UInt8, o <+: hdr.flatten → o <+: whole hdr b := by
    intro o ho
    refine ho.trans ?_
    cases b <;> exact List.prefix_append _ _
  split <;> rename_i w1 he <;> rw [he] at hd <;> obtain ⟨k1, k2, k3, k4, k5⟩ := hd <;> simp only at k1 k2 k3 k4 k5
  · exact ⟨fun _ => ⟨k1.1.trans hb, .inl ⟨k1.2.2.2.2.2.trans hw, k4, k2.trans hff, fun e => by simp [e] at k5⟩⟩,
      hp _ (k4 ▸ List.prefix_append _ _), by simp [k1.2.1, hf]⟩
  · exact ⟨by simp [finish], hp _ (k4 ▸ List.prefix_append _ _), by simp [finish]⟩
  · have e : w1.out = hdr.flatten := by rw [← k4, k5.mp trivial, List.append_nil]
    have eb := k1.1.trans hb
    split
    · rename_i f n hbf
      obtain rfl := eb.symm.trans hbf
      split
      · rename_i hn
        split
        · refine ffCall_ok hn rfl hbf (k1.2.1.trans hf) ⟨[], by simp [e], ?_⟩
          simp [FfInv, k2, hff]
        · exact ⟨by simp [finish], hp _ (e ▸ List.prefix_rfl), by simp [finish]⟩
      · rename_i hn
        exact ⟨by simp [finish], hp _ (e ▸ List.prefix_rfl), fun _ _ => by simp [finish, whole, e, hn]⟩
    · rename_i p hbp
      obtain rfl := eb.symm.trans hbp
      split
      · rename_i hn
        exact ⟨by simp [finish], hp _ (e ▸ List.prefix_rfl), fun _ _ => by simp [finish, whole, e, hn]⟩
      · exact apiCall_ok rfl hbp (k1.2.1.trans hf) (by simp [e])

theorem start_ok (tls : Bool) (t0 : Ssl.S) (hdr : List (List UInt8)) (body : Body) (mem : Bool) (rd : List Nat) (dst : List Wr) (peek : List Peek) :
    Ok hdr body (start tls t0 hdr body mem rd dst peek) := hdrCall_ok rfl rfl rfl (by simp) rfl

theorem callW_ok {hdr : List (List UInt8)} {b : Body} {w : W} (hf : w.fin = none) (h : At hdr.flatten b w) :
    ∃ r, callW w = some r ∧ Ok hdr b r := by
  obtain ⟨hb, ⟨h1, h2, h3, h4⟩ | ⟨h1, f, n, rfl, hn, h2, h3⟩ | ⟨h1, p, rfl, h2, h3⟩⟩ := h
  · exact ⟨_, by simp only [callW, h1], hdrCall_ok h1 hb hf h2 h3⟩
  · exact ⟨_, by simp only [callW, h1, hb], ffCall_ok hn h1 hb hf h2⟩
  · exact ⟨_, by simp only [callW, h1], apiCall_ok h1 hb hf h2⟩

theorem step_ok {hdr : List (List UInt8)} {b : Body} {w r : W} {e : Ev} (h : Ok hdr b w) (hs : step w e = some r) : Ok hdr b r := by
  unfold step at hs
  split at hs
  · cases hs; exact h
  · rename_i hf
    have ha := h.1 hf
    have hA : ∀ r1 w1, At hdr.flatten b { w with wR := r1, wW := w1 } := fun r1 w1 => ha
    have hO : ∀ r1 w1, Ok hdr b { w with wR := r1, wW := w1 } := fun r1 w1 => h
    split at hs
    · cases hs; exact ⟨by simp [finish], h.2.1, by simp [finish]⟩
    · split at hs
      · cases hs; exact hO _ _
      · obtain ⟨r', e1, e2⟩ := callW_ok (w := { w with wR := false }) hf (hA _ _)
        rw [e1] at hs; cases hs; exact e2
      · cases hs
        unfold tryRead
        split
        · exact hO _ _
        · exact ⟨by simp [finish], h.2.1, by simp [finish]⟩
        · exact h
      · cases hs
    · split at hs
      · cases hs; exact hO _ _
      · obtain ⟨r', e1, e2⟩ := callW_ok (w := { w with wW := false }) hf (hA _ _)
        rw [e1] at hs; cases hs; exact e2

theorem run_ok {hdr : List (List UInt8)} {b : Body} {w r : W} (es : List Ev) (h : Ok hdr b w) (hs : run w es = some r) : Ok hdr b r := by
  induction es generalizing w with
  | nil => cases hs; exact h
  | cons e es ih =>
    simp only [run, Option.bind_eq_some_iff] at hs
    obtain ⟨w', h1, h2⟩ := hs
    exact ih (step_ok h h1) h2

/-! ### What continues a response -/

/-- What is registered when a response waits over TLS. -/
def Waits (w : W) : Prop :=
  (w.t.opt = ⟨false, true⟩ ∧ w.wW = true) ∨ (w.t.opt = ⟨true, false⟩ ∧ w.wR = true ∧ w.t.rcb = some .wr)

theorem mod_t (w : W) (s : Ssl.S) : (mod w s).t = s := by unfold mod; split <;> rfl

theorem onWrite_waits {w : W} (ht : w.tls = true) (r : Bool) : Waits (onWrite w (if r then .wantR else .wantW)) := by
  unfold onWrite
  rw [if_pos ht]
  cases r
  · exact .inl ⟨by simp only [Bool.false_eq_true, if_false, mod_t]; rfl, rfl⟩
  · exact .inr ⟨by simp only [if_true, mod_t]; rfl, rfl, by simp only [if_true, mod_t]; rfl⟩

theorem chainLoop_waits (w : W) (ht : w.tls = true) (h : (chainLoop w).2 = .again) : Waits (chainLoop w).1 := by
  fun_induction chainLoop w with
  | case1 w _ => simp at h
  | case2 w p x q _ hd => exact onWrite_waits ht false
  | case3 w p x q _ r ds hd => exact onWrite_waits (w := { w with dst := ds }) ht r
  | case4 w p x q _ ds hd => simp at h
  | case5 w p x q _ n ds hd ih => exact ih ((onWrite_same _ _).2.2.2.1.trans ht) h

theorem ffSend_waits {w w1 : W} (ht : w.tls = true) (h : ffSend w = (w1, .again)) : Waits w1 := by
  unfold ffSend at h
  split at h
  · cases h
  · split at h <;> cases h
    · exact onWrite_waits ht false
    · rename_i r ds hd
      exact onWrite_waits (w := { w with dst := ds }) ht r

theorem ffLoop_waits (file : List UInt8) (fsize : Int) (w : W) (ht : w.tls = true) (h : (ffLoop file fsize w).2 = .again) :
    Waits (ffLoop file fsize w).1 := by
  fun_induction ffLoop file fsize w with
  | case1 w w1 hs => exact ffSend_waits ht hs
  | case2 w w1 hs => simp at h
  | case3 w w1 hs hr => simp at h
  | case4 w w1 hs z hz hr => simp at h
  | case5 w w1 hs o hr ih => exact ih ((ffSend_data hs).1.2.2.2.1.trans ht) h

theorem ffCall_waits {f : List UInt8} {n : Int} {w : W} (ht : w.tls = true) (h : (ffCall f n w).fin = none) : Waits (ffCall f n w) := by
  have hw := ffLoop_waits f n w ht
  unfold ffCall at h ⊢
  split at h
  · rename_i w1 he; rw [he] at hw; exact hw rfl
  · simp [finish] at h
  · simp [finish] at h

theorem apiCall_waits {w : W} (ht : w.tls = true) (h : (apiCall w).fin = none) : Waits (apiCall w) := by
  have hw := chainLoop_waits w ht
  unfold apiCall at h ⊢
  split at h
  · rename_i w1 he; rw [he] at hw; exact hw rfl
  · simp [finish] at h
  · simp [finish] at h

theorem hdrCall_waits {w : W} (ht : w.tls = true) (h : (hdrCall w).fin = none) : Waits (hdrCall w) := by
  have hw := chainLoop_waits w ht
  have hd := (chainLoop_data w).1.2.2.2.1
  unfold hdrCall at h ⊢
  split at h
  · rename_i w1 he; rw [he] at hw; exact hw rfl
  · simp [finish] at h
  · rename_i w1 he
    rw [he] at hd
    have ht1 : w1.tls = true := hd.trans ht
    split at h
    · split at h
      · split at h
        · rename_i hn hm; rw [if_pos hn, if_pos hm]; exact ffCall_waits (by exact ht1) h
        · simp [finish] at h
      · simp [finish] at h
    · split at h
      · simp [finish] at h
      · rename_i hn; rw [if_neg hn]; exact apiCall_waits (by exact ht1) h

theorem ffCall_tls (f : List UInt8) (n : Int) (w : W) : (ffCall f n w).tls = w.tls := by
  have : ∀ w : W, (ffLoop f n w).1.tls = w.tls := by
    intro w
    fun_induction ffLoop f n w with
    | case1 w w1 hs => exact (ffSend_data hs).1.2.2.2.1
    | case2 w w1 hs => exact (ffSend_data hs).1.2.2.2.1
    | case3 w w1 hs hr => exact (ffSend_data hs).1.2.2.2.1
    | case4 w w1 hs z hz hr => exact (ffSend_data hs).1.2.2.2.1
    | case5 w w1 hs o hr ih => exact ih.trans (ffSend_data hs).1.2.2.2.1
  have h := this w
  unfold ffCall
  split <;> rename_i w1 he <;> rw [he] at h <;> exact h

theorem apiCall_tls (w : W) : (apiCall w).tls = w.tls := by
  have h := (chainLoop_data w).1.2.2.2.1
  unfold apiCall
  split <;> rename_i w1 he <;> rw [he] at h <;> exact h

theorem hdrCall_tls (w : W) : (hdrCall w).tls = w.tls := by
  have h := (chainLoop_data w).1.2.2.2.1
  unfold hdrCall
  split <;> rename_i w1 he <;> rw [he] at h
  · exact h
  · exact h
  · split
    · split
      · split
        · rw [ffCall_tls]; exact h
        · exact h
      · exact h
    · split
      · exact h
      · rw [apiCall_tls]; exact h

theorem callW_waits {w r : W} (ht : w.tls = true) (h : callW w = some r) : r.tls = true ∧ (r.fin = none → Waits r) := by
  unfold callW at h
  split at h <;> cases h
  · exact ⟨(hdrCall_tls w).trans ht, hdrCall_waits ht⟩
  · exact ⟨(ffCall_tls _ _ w).trans ht, ffCall_waits ht⟩
  · exact ⟨(apiCall_tls w).trans ht, apiCall_waits ht⟩

/-- What holds of a response over TLS at any time. -/
def Going (hdr : List (List UInt8)) (b : Body) (w : W) : Prop := w.tls = true ∧ Ok hdr b w ∧ (w.fin = none → Waits w)

theorem start_going (t0 : Ssl.S) (hdr : List (List UInt8)) (body : Body) (mem : Bool) (rd : List Nat) (dst : List Wr) (peek : List Peek) :
    Going hdr body (start true t0 hdr body mem rd dst peek) :=
  ⟨hdrCall_tls _, start_ok .., hdrCall_waits rfl⟩

/-- Every event that can be reported, other than the timer, enters the handler that continues the response. -/
theorem step_calls {hdr : List (List UInt8)} {b : Body} {w : W} {e : Ev} (h : Going hdr b w) (hf : w.fin = none) (hr : Reportable w e) (he : e ≠ .timeout) :
    ∃ w0, step w e = callW w0 ∧ (w0 = { w with wR := false } ∨ w0 = { w with wW := false }) := by
  have hw := h.2.2 hf
  have hA := h.2.1.1 hf
  cases e with
  | timeout => exact absurd rfl he
  | r =>
    refine ⟨{ w with wR := false }, ?_, .inl rfl⟩
    rcases hw with ⟨h1, -⟩ | ⟨h1, -, h2⟩
    · simp [Reportable, h1] at hr
    · simp only [step, hf, h2]
  | w =>
    refine ⟨{ w with wW := false }, ?_, .inr rfl⟩
    have hc : w.t.wcb ≠ none := by
      obtain ⟨-, ⟨h1, -⟩ | ⟨h1, -⟩ | ⟨h1, -⟩⟩ := hA <;> simp [h1]
    simp only [step, hf]

theorem step_going {hdr : List (List UInt8)} {b : Body} {w : W} {e : Ev} (h : Going hdr b w) (hr : Reportable w e) :
    ∃ r, step w e = some r ∧ Going hdr b r := by
  by_cases hf : w.fin = none
  · by_cases he : e = .timeout
    · subst he
      exact ⟨finish w .expired, by simp only [step, hf], h.1, ⟨by simp [finish], h.2.1.2.1, by simp [finish]⟩, by simp [finish]⟩
    · obtain ⟨w0, e1, e2⟩ := step_calls h hf hr he
      have ha := h.2.1.1 hf
      have hA : w0.fin = none ∧ w0.tls = true ∧ At hdr.flatten b w0 := by
        rcases e2 with rfl | rfl <;> exact ⟨hf, h.1, ha⟩
      obtain ⟨r, r1, r2⟩ := callW_ok hA.1 hA.2.2
      have r3 := callW_waits hA.2.1 r1
      exact ⟨r, e1.trans r1, r3.1, r2, r3.2⟩
  · obtain ⟨x, hx⟩ := Option.ne_none_iff_exists'.mp hf
    exact ⟨w, by simp only [step, hx], h⟩

theorem run_going {hdr : List (List UInt8)} {b : Body} {w : W} (es : List Ev) (h : Going hdr b w) (hp : Possible w es) :
    ∃ r, run w es = some r ∧ Going hdr b r := by
  induction es generalizing w with
  | nil => exact ⟨w, rfl, h⟩
  | cons e es ih =>
    obtain ⟨r, r1, r2⟩ := step_going h hp.1
    obtain ⟨q, q1, q2⟩ := ih r2 (hp.2 r r1)
    exact ⟨q, by simp only [run, r1, Option.bind_some, q1], q2⟩

theorem Going.continues {hdr : List (List UInt8)} {b : Body} {w : W} (h : Going hdr b w) (hf : w.fin = none) : Continues w := by
  have hw := h.2.2 hf
  have hA := h.2.1.1 hf
  have hk : ∃ k, w.t.wcb = some (.app k) ∧ 1 ≤ k ∧ k ≤ 3 := by
    obtain ⟨-, ⟨h1, -⟩ | ⟨h1, -⟩ | ⟨h1, -⟩⟩ := hA
    · exact ⟨1, h1, by omega, by omega⟩
    · exact ⟨2, h1, by omega, by omega⟩
    · exact ⟨3, h1, by omega, by omega⟩
  rcases hw with ⟨h1, h2⟩ | ⟨h1, h2, h3⟩
  · exact .inl ⟨by simp [h1], h2, hk⟩
  · exact .inr ⟨by simp [h1], h2, h3, hk⟩

/-! ### The response ends -/

theorem wow_tail {x : Wr} {ds : List Wr} (h : WholeOrWait (x :: ds)) : WholeOrWait ds := fun y hy => h y (List.mem_cons_of_mem _ hy)

theorem chainLoop_live (w : W) (m : Nat) (hg : WholeOrWait w.dst) (hs : w.chain.flatten.length + m ≤ sents w.dst) :
    WholeOrWait (chainLoop w).1.dst ∧
    (((chainLoop w).2 = .drained ∧ m ≤ sents (chainLoop w).1.dst ∧ waits (chainLoop w).1.dst ≤ waits w.dst) ∨
     ((chainLoop w).2 = .again ∧ (chainLoop w).1.chain.flatten.length + m ≤ sents (chainLoop w).1.dst ∧ waits (chainLoop w).1.dst < waits w.dst)) := by
  fun_induction chainLoop w with
  | case1 w _ => exact ⟨hg, .inl ⟨rfl, by simp only at hs ⊢; omega, Nat.le_refl _⟩⟩
  | case2 w p x q h hd =>
    obtain ⟨h1, h2, h3⟩ := Net.firstUnsent_some h
    have : 0 < x.length := List.length_pos_iff.mpr h3
    rw [hd, h1] at hs
    simp only [List.flatten_append, h2, List.flatten_cons, List.nil_append, List.length_append, sents] at hs
    omega
  | case3 w p x q h r ds hd =>
    rw [hd] at hs hg
    refine ⟨by simpa using (wow_tail hg), .inr ⟨rfl, ?_, ?_⟩⟩
    · simpa only [onWrite_dst, (onWrite_keep _ _).2.2.1, sents] using hs
    · simp only [onWrite_dst, hd, waits]; omega
  | case4 w p x q h ds hd =>
    have := hg .fail (by rw [hd]; simp)
    simp at this
  | case5 w p x q h n ds hd ih =>
    obtain ⟨h1, h2, h3⟩ := Net.firstUnsent_some h
    have hx : 0 < x.length := List.length_pos_iff.mpr h3
    rw [hd] at hs hg
    have hn : 16344 ≤ n := by
      rcases hg (.sent n) (by simp) with ⟨r, hr⟩ | ⟨k, hk, hk2⟩
      · simp at hr
      · cases hk; exact hk2
    rw [h1] at hs
    simp only [List.flatten_append, h2, List.flatten_cons, List.nil_append, List.length_append, sents] at hs
    have := ih (by simpa using (wow_tail hg)) (by
      rw [(onWrite_keep _ _).2.2.1, onWrite_dst]
      simp only [List.flatten_append, h2, List.flatten_cons, List.nil_append, List.length_append, List.length_drop]
      omega)
    rw [onWrite_dst] at this
    refine ⟨this.1, ?_⟩
    simp only [hd, waits]
    exact this.2

/-- What the transfer of a file needs to end. -/
def FileLive (file : List UInt8) (w : W) : Prop :=
  w.ff.buf.length ≤ 16344 ∧ (∀ n ∈ w.rd, 0 < n) ∧ file.length - w.ff.off ≤ w.rd.length

theorem ffSend_live {w w1 : W} (hg : WholeOrWait w.dst) (hb : w.ff.buf.length ≤ 16344) (h : ffSend w = (w1, .drained)) :
    w1.ff.buf = [] ∧ w1.ff.off = w.ff.off ∧ WholeOrWait w1.dst ∧ w.out.length + sents w.dst ≤ w1.out.length + sents w1.dst ∧ waits w1.dst = waits w.dst := by
  unfold ffSend at h
  split at h
  · rename_i hb; cases h; exact ⟨hb, rfl, hg, Nat.le_refl _, rfl⟩
  · rename_i hbn
    have hbn' := List.length_pos_iff.mpr hbn
    split at h <;> cases h
    rename_i n ds hd
    rw [hd] at hg
    have hn : 16344 ≤ n := by
      rcases hg (.sent n) (by simp) with ⟨r, hr⟩ | ⟨k, hk, hk2⟩
      · simp at hr
      · cases hk; exact hk2
    obtain ⟨k1, k2, k3, k4, -⟩ := onWrite_keep { w with
        dst := ds
        ff := { w.ff with buf := w.ff.buf.drop n, fsend := w.ff.fsend + min n w.ff.buf.length }
        out := w.out ++ w.ff.buf.take n } .ok
    simp only [k2, k4, onWrite_dst, hd, sents, waits, List.length_append, List.length_take]
    exact ⟨List.drop_eq_nil_of_le (by omega), trivial, wow_tail hg, by omega, trivial⟩

theorem ffLoop_live (H file : List UInt8) (w : W) (h : FileAt H file w) (hl : FileLive file w) (hg : WholeOrWait w.dst)
    (hs : H.length + file.length ≤ w.out.length + sents w.dst) :
    ((ffLoop file file.length w).2 = .drained) ∨
    ((ffLoop file file.length w).2 = .again ∧ WholeOrWait (ffLoop file file.length w).1.dst ∧ FileLive file (ffLoop file file.length w).1 ∧
      H.length + file.length ≤ (ffLoop file file.length w).1.out.length + sents (ffLoop file file.length w).1.dst ∧
      waits (ffLoop file file.length w).1.dst < waits w.dst) := by
  generalize hz : (file.length : Int) = fsize
  fun_induction ffLoop file fsize w with
  | case1 w w1 hs1 =>
    right
    obtain ⟨s, e, i1, i2, i3⟩ := h
    unfold ffSend at hs1
    split at hs1
    · cases hs1
    · rename_i hb
      have hb' := List.length_pos_iff.mpr hb
      have hlen := congrArg List.length i1
      simp only [List.length_append, List.length_take] at hlen
      split at hs1 <;> cases hs1
      · rename_i hd
        rw [hd, e] at hs; simp [sents] at hs; omega
      · rename_i r ds hd
        rw [hd] at hs hg
        obtain ⟨k1, k2, k3, k4, -⟩ := onWrite_keep { w with dst := ds } (if r then .wantR else .wantW)
        simp only [FileLive, onWrite_dst, k1, k2, k4, hd, waits, sents] at hs ⊢
        exact ⟨trivial, (wow_tail hg), hl, hs, by omega⟩
  | case2 w w1 hs1 =>
    unfold ffSend at hs1
    split at hs1
    · cases hs1
    · split at hs1 <;> cases hs1
      rename_i ds hd
      have := hg .fail (by rw [hd]; simp)
      simp at this
  | case3 w w1 hs1 hr => exact .inl rfl
  | case4 w w1 hs1 z hz1 hr =>
    exfalso
    subst hz
    obtain ⟨k1, k2, k3, k4⟩ := ffSend_data hs1
    obtain ⟨j1, j2, j3, j4, j5⟩ := ffSend_live hg hl.1 hs1
    rcases k4 with ⟨k4, -⟩ | ⟨-, n, k4, k5⟩
    · exact absurd rfl k4
    · obtain ⟨s, e, i⟩ := h
      have i1 := FfInv.send i n
      rw [← k4] at i1
      have := Web.ffRead_live (tx := []) (rd := w1.rd) i1 j1 (by rw [k2]; exact hl.2.1) (by rw [k2, j2]; exact hl.2.2)
      rw [hr] at this
      rcases this with this | ⟨o, this, -⟩
      · simp at this; exact hz1 this
      · simp at this
  | case5 w w1 hs1 o hr ih =>
    subst hz
    obtain ⟨k1, k2, k3, k4⟩ := ffSend_data hs1
    obtain ⟨j1, j2, j3, j4, j5⟩ := ffSend_live hg hl.1 hs1
    rcases k4 with ⟨k4, -⟩ | ⟨-, n, k4, k5⟩
    · exact absurd rfl k4
    · obtain ⟨s, e, i⟩ := h
      have i1 := FfInv.send i n
      rw [← k4] at i1
      have := Web.ffRead_live (tx := []) (rd := w1.rd) i1 j1 (by rw [k2]; exact hl.2.1) (by rw [k2, j2]; exact hl.2.2)
      rw [hr] at this
      rcases this with this | ⟨o', this, q1, q2, q3, q4⟩
      · simp at this
      · cases this
        have i2 := (Web.ffRead_inv i1 hr).2 o rfl
        have := ih ⟨s ++ w.ff.buf.take n, by simp only [k5, e, List.append_assoc], i2⟩ ⟨q1, q3, q4⟩ j3 (by simp only; omega)
        simp only [j5] at this
        exact this

/-- What a response needs to end, apart from the events. -/
def Live (hdr : List (List UInt8)) (b : Body) (w : W) : Prop :=
  w.mem = true ∧ WholeOrWait w.dst ∧ (whole hdr b).length ≤ w.out.length + sents w.dst ∧
  ∀ f n, b = .file f n → n = f.length ∧ FileLive f w

/-- The result of one invocation. -/
def Moved (hdr : List (List UInt8)) (b : Body) (w r : W) : Prop :=
  r.fin = some .done ∨ (r.fin = none ∧ Live hdr b r ∧ waits r.dst < waits w.dst)

theorem ffCall_live {hdr : List (List UInt8)} {f : List UInt8} (hn : 0 < f.length) {w : W} (hf : w.fin = none) (h : FileAt hdr.flatten f w)
    (hl : Live hdr (.file f f.length) w) : Moved hdr (.file f f.length) w (ffCall f f.length w) := by
  obtain ⟨l1, l2, l3, l4⟩ := hl
  have hw : (whole hdr (.file f f.length)).length = hdr.flatten.length + f.length := by
    simp only [whole]; rw [if_pos (by omega), List.length_append]
  rw [hw] at l3
  have hd := ffLoop_data hdr.flatten f f.length w h
  have hq := ffLoop_live hdr.flatten f w h (l4 f _ rfl).2 l2 l3
  unfold ffCall Moved
  rcases hq with hq | ⟨hq, q1, q2, q3, q4⟩
  · split <;> rename_i w1 he <;> rw [he] at hq <;> simp at hq
    exact .inl rfl
  · split <;> rename_i w1 he <;> rw [he] at hq q1 q2 q3 q4 hd <;> simp at hq
    refine .inr ⟨hd.1.2.1.trans hf, ⟨hd.1.2.2.1.trans l1, q1, by rw [hw]; exact q3, fun f' n' e => ?_⟩, q4⟩
    cases e
    exact ⟨rfl, q2⟩

theorem apiCall_live {hdr : List (List UInt8)} {p : List UInt8} {w : W} (hf : w.fin = none) (h : w.out ++ w.chain.flatten = hdr.flatten ++ p)
    (hl : Live hdr (.api p) w) : Moved hdr (.api p) w (apiCall w) := by
  obtain ⟨l1, l2, l3, l4⟩ := hl
  simp only [whole, ← h, List.length_append] at l3
  have hd := chainLoop_data w
  have hq := chainLoop_live w 0 l2 (by omega)
  rw [h] at hd
  unfold apiCall Moved
  split <;> rename_i w1 he <;> rw [he] at hq hd <;> obtain ⟨k1, k2, k3, k4, k5⟩ := hd <;> simp only at k1 k2 k3 k4 k5
  · obtain ⟨q1, ⟨hq, -⟩ | ⟨hq, q2, q3⟩⟩ := hq
    · simp at hq
    · refine .inr ⟨k1.2.1.trans hf, ⟨k1.2.2.1.trans l1, q1, ?_, by simp⟩, q3⟩
      simp only [whole, ← k4, List.length_append] at q2 ⊢
      omega
  · simp at hq
  · exact .inl rfl

theorem Moved.mono {hdr : List (List UInt8)} {b : Body} {w w' r : W} (h : Moved hdr b w r) (hw : waits w.dst ≤ waits w'.dst) : Moved hdr b w' r := by
  rcases h with h | ⟨h1, h2, h3⟩
  · exact .inl h
  · exact .inr ⟨h1, h2, by omega⟩

theorem hdrCall_live {hdr : List (List UInt8)} {b : Body} {w : W} (hb : w.body = b)
    (hf : w.fin = none) (h : w.out ++ w.chain.flatten = hdr.flatten) (hff : w.ff = {}) (hl : Live hdr b w) : Moved hdr b w (hdrCall w) := by
  obtain ⟨l1, l2, l3, l4⟩ := hl
  have hle : hdr.flatten.length ≤ (whole hdr b).length := by cases b <;> simp [whole]
  have hlen := congrArg List.length h
  simp only [List.length_append] at hlen
  have hd := chainLoop_data w
  have hq := chainLoop_live w ((whole hdr b).length - hdr.flatten.length) l2 (by omega)
  rw [h] at hd
  unfold hdrCall
  split <;> rename_i w1 he <;> rw [he] at hq hd <;> obtain ⟨k1, k2, k3, k4, k5⟩ := hd <;> simp only at k1 k2 k3 k4 k5
  · obtain ⟨q1, ⟨hq, -⟩ | ⟨hq, q2, q3⟩⟩ := hq
    · simp at hq
    · refine .inr ⟨k1.2.1.trans hf, ⟨k1.2.2.1.trans l1, q1, ?_, fun f n e => ?_⟩, q3⟩
      · have := congrArg List.length k4
        simp only [List.length_append] at this q2 ⊢
        omega
      · obtain ⟨e1, e2⟩ := l4 f n e
        refine ⟨e1, ?_⟩
        unfold FileLive at e2 ⊢
        rw [k2, k3]; exact e2
  · simp at hq
  · obtain ⟨q1, ⟨-, q2, q3⟩ | ⟨hq, -⟩⟩ := hq
    swap
    · simp at hq
    have e : w1.out = hdr.flatten := by rw [← k4, k5.mp trivial, List.append_nil]
    have eb := k1.1.trans hb
    have hlv : Live hdr b w1 := by
      refine ⟨k1.2.2.1.trans l1, q1, ?_, fun f n ef => ?_⟩
      · rw [e]; simp only at q2; omega
      · obtain ⟨e1, e2⟩ := l4 f n ef
        refine ⟨e1, ?_⟩
        unfold FileLive at e2 ⊢
        rw [k2, k3]; exact e2
    split
    · rename_i f n hbf
      obtain rfl := eb.symm.trans hbf
      obtain ⟨rfl, -⟩ := l4 f n rfl
      split
      · rename_i hn
        rw [if_pos hlv.1]
        refine (ffCall_live (w := { w1 with t := { w1.t with wcb := some (.app 2) } }) (by omega) (k1.2.1.trans hf) ⟨[], by simp [e], ?_⟩ hlv).mono q3
        simp [FfInv, k2, hff]
      · exact .inl rfl
    · rename_i p hbp
      obtain rfl := eb.symm.trans hbp
      split
      · exact .inl rfl
      · exact (apiCall_live (w := { w1 with chain := [p], t := { w1.t with wcb := some (.app 3) } }) (k1.2.1.trans hf) (by simp [e])
          ⟨hlv.1, hlv.2.1, hlv.2.2.1, by simp⟩).mono q3

theorem start_live (tls : Bool) (t0 : Ssl.S) {hdr : List (List UInt8)} {body : Body} {rd : List Nat} {dst : List Wr} (peek : List Peek)
    (hd : WholeOrWait dst) (hn : (whole hdr body).length ≤ sents dst) (hs : Sized body)
    (hr : ∀ f n, body = .file f n → (∀ k ∈ rd, 0 < k) ∧ f.length ≤ rd.length) :
    (start tls t0 hdr body true rd dst peek).fin = some .done ∨
    ((start tls t0 hdr body true rd dst peek).fin = none ∧ Live hdr body (start tls t0 hdr body true rd dst peek) ∧
      waits (start tls t0 hdr body true rd dst peek).dst < waits dst) := by
  refine hdrCall_live (w := { tls := tls, t := { t0 with rcb := some (.app 0), wcb := some (.app 1) }, wR := true, wW := true, chain := hdr, body := body, ff := {}, mem := true, rd := rd, dst := dst, peek := peek, out := [], fin := none }) rfl rfl (by simp) rfl ⟨rfl, hd, by simpa using hn, ?_⟩
  rintro f n rfl
  exact ⟨hs, by simp, (hr f n rfl).1, by simpa using (hr f n rfl).2⟩

theorem callW_live {hdr : List (List UInt8)} {b : Body} {w r : W} (hf : w.fin = none) (h : At hdr.flatten b w) (hl : Live hdr b w)
    (hr : callW w = some r) : Moved hdr b w r := by
  obtain ⟨hb, ⟨h1, h2, h3, h4⟩ | ⟨h1, f, n, rfl, hn, h2, h3⟩ | ⟨h1, p, rfl, h2, h3⟩⟩ := h
  · simp only [callW, h1] at hr; cases hr; exact hdrCall_live hb hf h2 h3 hl
  · simp only [callW, h1, hb] at hr; cases hr
    obtain ⟨rfl, -⟩ := hl.2.2.2 f n rfl
    exact ffCall_live (by omega) hf h2 hl
  · simp only [callW, h1] at hr; cases hr; exact apiCall_live hf h2 hl

theorem run_done {w : W} {x : Fin} (h : w.fin = some x) (es : List Ev) : run w es = some w := by
  induction es with
  | nil => rfl
  | cons e es ih => simp only [run, step, h, Option.bind_some, ih]

theorem run_live {hdr : List (List UInt8)} {b : Body} {w : W} (es : List Ev) (h : Going hdr b w) (hp : Possible w es) (ht : Ev.timeout ∉ es)
    (hl : w.fin = some .done ∨ (w.fin = none ∧ Live hdr b w ∧ waits w.dst < es.length)) :
    ∃ r, run w es = some r ∧ r.fin = some .done := by
  induction es generalizing w with
  | nil =>
    rcases hl with hl | ⟨-, -, hl⟩
    · exact ⟨w, rfl, hl⟩
    · simp at hl
  | cons e es ih =>
    simp only [List.mem_cons, not_or] at ht
    rcases hl with hl | ⟨hf, hl, hn⟩
    · exact ⟨w, run_done hl _, hl⟩
    · obtain ⟨w0, e1, e2⟩ := step_calls h hf hp.1 (Ne.symm ht.1)
      obtain ⟨r, r1, r2⟩ := step_going h hp.1
      have hm : Moved hdr b w r := by
        have ha := h.2.1.1 hf
        rw [e1] at r1
        rcases e2 with rfl | rfl
        · exact callW_live (w := { w with wR := false }) hf ha hl r1
        · exact callW_live (w := { w with wW := false }) hf ha hl r1
      obtain ⟨q, q1, q2⟩ := ih r2 (hp.2 r r1) ht.2 (by
        rcases hm with hm | ⟨m1, m2, m3⟩
        · exact .inl hm
        · simp only [List.length_cons] at hn
          exact .inr ⟨m1, m2, by omega⟩)
      exact ⟨q, by simp only [run, r1, Option.bind_some, q1], q2⟩

/-! ### Without TLS -/

/-- Interest and reading callback stay, on a connection without TLS. -/
def Kept (v w : W) : Prop := v.t.opt = w.t.opt ∧ v.t.rcb = w.t.rcb

theorem onWrite_kept {w : W} (ht : w.tls = false) (x : Ssl.Res) : Kept (onWrite w x) w := by
  unfold onWrite
  rw [if_neg (by simp [ht])]
  split <;> exact ⟨rfl, rfl⟩

theorem chainLoop_kept (w : W) (ht : w.tls = false) : Kept (chainLoop w).1 w := by
  fun_induction chainLoop w with
  | case1 w _ => exact ⟨rfl, rfl⟩
  | case2 w p x q _ hd => exact onWrite_kept ht _
  | case3 w p x q _ r ds hd => exact onWrite_kept (w := { w with dst := ds }) ht _
  | case4 w p x q _ ds hd => exact onWrite_kept ht _
  | case5 w p x q _ n ds hd ih =>
    have h1 := onWrite_kept (w := { w with dst := ds, chain := p ++ x.drop n :: q, out := w.out ++ x.take n }) ht .ok
    have h2 := ih ((onWrite_same _ _).2.2.2.1.trans ht)
    exact ⟨h2.1.trans h1.1, h2.2.trans h1.2⟩

theorem ffSend_kept {w w1 : W} {r : SendRes} (ht : w.tls = false) (h : ffSend w = (w1, r)) : Kept w1 w := by
  unfold ffSend at h
  split at h
  · cases h; exact ⟨rfl, rfl⟩
  · split at h <;> cases h
    · exact onWrite_kept ht _
    · rename_i r ds hd
      exact onWrite_kept (w := { w with dst := ds }) ht _
    · exact onWrite_kept ht _
    · rename_i n ds hd
      exact onWrite_kept (w := { w with
        dst := ds
        ff := { w.ff with buf := w.ff.buf.drop n, fsend := w.ff.fsend + min n w.ff.buf.length }
        out := w.out ++ w.ff.buf.take n }) ht _

theorem ffLoop_kept (file : List UInt8) (fsize : Int) (w : W) (ht : w.tls = false) : Kept (ffLoop file fsize w).1 w := by
  fun_induction ffLoop file fsize w with
  | case1 w w1 hs => exact ffSend_kept ht hs
  | case2 w w1 hs => exact ffSend_kept ht hs
  | case3 w w1 hs hr => exact ffSend_kept ht hs
  | case4 w w1 hs z hz hr => exact ffSend_kept ht hs
  | case5 w w1 hs o hr ih =>
    have h1 := ffSend_kept ht hs
    have h2 := ih ((ffSend_data hs).1.2.2.2.1.trans ht)
    exact ⟨h2.1.trans h1.1, h2.2.trans h1.2⟩

theorem ffCall_kept (f : List UInt8) (n : Int) (w : W) (ht : w.tls = false) : Kept (ffCall f n w) w := by
  have h := ffLoop_kept f n w ht
  unfold ffCall
  split <;> rename_i w1 he <;> rw [he] at h <;> exact h

theorem apiCall_kept (w : W) (ht : w.tls = false) : Kept (apiCall w) w := by
  have h := chainLoop_kept w ht
  unfold apiCall
  split <;> rename_i w1 he <;> rw [he] at h <;> exact h

theorem hdrCall_kept (w : W) (ht : w.tls = false) : Kept (hdrCall w) w := by
  have h := chainLoop_kept w ht
  have hd := (chainLoop_data w).1.2.2.2.1
  unfold hdrCall
  split <;> rename_i w1 he <;> rw [he] at h hd
  · exact h
  · exact h
  · have ht1 : w1.tls = false := hd.trans ht
    split
    · split
      · split
        · exact ffCall_kept _ _ { w1 with t := { w1.t with wcb := some (.app 2) } } ht1 |>.imp (·.trans h.1) (·.trans h.2)
        · exact h
      · exact h
    · split
      · exact h
      · rename_i p _ _
        exact apiCall_kept { w1 with chain := [p], t := { w1.t with wcb := some (.app 3) } } ht1 |>.imp (·.trans h.1) (·.trans h.2)

/-- A connection without TLS that waits: only reading is registered. -/
def Stuck (w : W) : Prop := w.t.opt = ⟨true, false⟩ ∧ w.t.rcb = some (.app 0)

theorem start_stuck (hdr : List (List UInt8)) (body : Body) (mem : Bool) (rd : List Nat) (dst : List Wr) (peek : List Peek) :
    Stuck (start false plainT hdr body mem rd dst peek) := hdrCall_kept _ rfl

theorem step_stuck {w : W} {e : Ev} (h : Stuck w) (hr : Reportable w e) :
    ∃ r, step w e = some r ∧ Stuck r ∧ r.out = w.out ∧ r.dst = w.dst ∧ (r.fin = w.fin ∨ r.fin = some .closed ∨ r.fin = some .expired) ∧
      (e = .timeout → r.fin ≠ none) := by
  unfold step
  split
  · rename_i x hx
    exact ⟨w, rfl, h, rfl, rfl, .inl rfl, fun _ => by simp [hx]⟩
  · cases e with
    | timeout => exact ⟨_, rfl, h, rfl, rfl, .inr (.inr rfl), fun _ => by simp [finish]⟩
    | w => simp [Reportable, h.1] at hr
    | r =>
      simp only [h.2]
      refine ⟨_, rfl, ?_⟩
      unfold tryRead
      split
      · exact ⟨h, rfl, rfl, .inl rfl, by simp⟩
      · exact ⟨h, rfl, rfl, .inr (.inl rfl), by simp⟩
      · exact ⟨h, rfl, rfl, .inl rfl, by simp⟩

theorem run_stuck {w : W} (es : List Ev) (h : Stuck w) (hf : w.fin ≠ some .done) (hp : Possible w es) :
    ∃ r, run w es = some r ∧ Stuck r ∧ r.out = w.out ∧ r.dst = w.dst ∧ r.fin ≠ some .done ∧ (Ev.timeout ∈ es → r.fin ≠ none) := by
  induction es generalizing w with
  | nil => exact ⟨w, rfl, h, rfl, rfl, hf, by simp⟩
  | cons e es ih =>
    obtain ⟨r, r1, r2, r3, r4, r5, r6⟩ := step_stuck h hp.1
    obtain ⟨q, q1, q2, q3, q4, q5, q6⟩ := ih r2 (by rcases r5 with r5 | r5 | r5 <;> rw [r5]; exact hf; simp; simp) (hp.2 r r1)
    refine ⟨q, by simp only [run, r1, Option.bind_some, q1], q2, q3.trans r3, q4.trans r4, q5, fun hm => ?_⟩
    rcases List.mem_cons.mp hm with hm | hm
    · obtain ⟨x, hx⟩ := Option.ne_none_iff_exists'.mp (r6 hm.symm)
      rw [run_done hx] at q1
      cases q1
      exact r6 hm.symm
    · exact q6 hm

theorem At.short {hdr : List (List UInt8)} {b : Body} {w : W} (h : At hdr.flatten b w) : w.out.length < (whole hdr b).length := by
  obtain ⟨hb, ⟨h1, h2, h3, h4⟩ | ⟨h1, f, n, rfl, hn, ⟨s, e, i1, i2, i3⟩, h3⟩ | ⟨h1, p, rfl, h2, h3⟩⟩ := h
  · have := congrArg List.length h2
    have h5 := List.length_pos_iff.mpr h4
    have : hdr.flatten.length ≤ (whole hdr b).length := by cases b <;> simp [whole]
    simp only [List.length_append] at *
    omega
  · have := congrArg List.length i1
    have h5 := List.length_pos_iff.mpr h3
    simp only [whole, e]; rw [if_pos hn]
    simp only [List.length_append, List.length_take] at *
    omega
  · have := congrArg List.length h2
    have h5 := List.length_pos_iff.mpr h3
    simp only [whole, List.length_append] at *
    omega

end Verif.WebSend
