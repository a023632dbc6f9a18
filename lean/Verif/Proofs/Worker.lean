import Verif.Model.Worker
import Verif.Proofs.Mem
/-
The handlers on shared memory do what `Verif.Tunnel`'s handlers do on lists, and store only inside their own buffer.
-/
namespace Verif.Worker
open Verif Verif.Net Verif.Tunnel

/-- What a direction on memory stands for. -/
def abs (mem : Memory) (d : MDir) : Dir :=
  { src := d.src, dst := d.dst, out := d.out, buf := rd mem (d.start + d.pos) (d.last - d.pos), used := d.last, eof := d.eof,
    readCb := d.readCb, writeCb := d.writeCb, srcWait := d.srcWait, dstWait := d.dstWait }

/-- The cursors are in order. -/
def Cur (d : MDir) : Prop := d.pos ≤ d.last ∧ d.last ≤ cap

/-- Nothing outside the data of the buffer at `a` changes. -/
def Fr (a : Nat) (mem mem' : Memory) : Prop := ∀ x, ¬ (a ≤ x ∧ x < a + cap) → mem' x = mem x

theorem Fr.refl (a : Nat) (mem : Memory) : Fr a mem mem := fun _ _ => rfl

theorem Fr.trans {a : Nat} {m m' m'' : Memory} (h : Fr a m m') (h' : Fr a m' m'') : Fr a m m'' :=
  fun x hx => (h' x hx).trans (h x hx)

@[simp] theorem rd_length (mem : Memory) (a n : Nat) : (rd mem a n).length = n := by simp [rd]

theorem rd_zero (mem : Memory) (a : Nat) : rd mem a 0 = [] := rfl

theorem rd_add (mem : Memory) (a m n : Nat) : rd mem a (m + n) = rd mem a m ++ rd mem (a + m) n := by
  simp only [rd, List.range_add, List.map_append, List.map_map]
  congr 1
  apply List.map_congr_left
  intro x _
  simp [Nat.add_assoc]

theorem rd_congr {mem mem' : Memory} {a n : Nat} (h : ∀ x, a ≤ x → x < a + n → mem' x = mem x) : rd mem' a n = rd mem a n := by
  unfold rd
  apply List.map_congr_left
  intro i hi
  rw [List.mem_range] at hi
  exact h _ (by omega) (by omega)

theorem rd_wr (mem : Memory) (a : Nat) (bs : List UInt8) : rd (wr mem a bs) a bs.length = bs := by
  apply List.ext_getElem
  · simp
  · intro i h1 h2
    simp only [rd, List.getElem_map, List.getElem_range, wr]
    rw [if_pos ⟨by omega, by omega⟩]
    simp [List.getD_eq_getElem?_getD, List.getElem?_eq_getElem h2]

theorem rd_take (mem : Memory) (a n k : Nat) : (rd mem a n).take k = rd mem a (min k n) := by
  rcases Nat.le_total k n with h | h
  · rw [Nat.min_eq_left h]
    obtain ⟨m, rfl⟩ := Nat.exists_eq_add_of_le h
    rw [rd_add, List.take_left' (by simp)]
  · rw [Nat.min_eq_right h, List.take_of_length_le (by simpa using h)]

theorem rd_drop (mem : Memory) (a n k : Nat) : (rd mem a n).drop k = rd mem (a + min k n) (n - min k n) := by
  rcases Nat.le_total k n with h | h
  · rw [Nat.min_eq_left h]
    obtain ⟨m, rfl⟩ := Nat.exists_eq_add_of_le h
    rw [rd_add, List.drop_left' (by simp)]
    simp
  · rw [Nat.min_eq_right h, List.drop_of_length_le (by simpa using h)]
    simp [rd_zero]

/-- The geometry of a buffer is not touched. -/
def Same (d d' : MDir) : Prop := d'.blk = d.blk ∧ d'.start = d.start

theorem rl_nil (D : Dir) (h : D.used < cap) (hs : D.src = []) : Tunnel.recvLoop D = { D with srcWait := true } := by
  rw [Tunnel.recvLoop.eq_def, dif_pos h]; split <;> simp_all

theorem rl_again (D : Dir) (h : D.used < cap) (t : List Rx) (hs : D.src = .again :: t) :
    Tunnel.recvLoop D = { D with src := t, srcWait := true } := by
  rw [Tunnel.recvLoop.eq_def, dif_pos h]; split <;> simp_all

theorem rl_fail (D : Dir) (h : D.used < cap) (t : List Rx) (hs : D.src = .fail :: t) : Tunnel.recvLoop D = { D with eof := true } := by
  rw [Tunnel.recvLoop.eq_def, dif_pos h]; split <;> simp_all

theorem rl_data (D : Dir) (h : D.used < cap) (b : UInt8) (bs : List UInt8) (t : List Rx) (hs : D.src = .data b bs :: t) :
    Tunnel.recvLoop D = Tunnel.recvLoop { D with
        buf := D.buf ++ (b :: bs).take (cap - D.used)
        used := D.used + min (cap - D.used) (bs.length + 1)
        src := pushBack (cap - D.used) b bs t
        srcWait := false } := by
  conv => lhs; rw [Tunnel.recvLoop.eq_def, dif_pos h]
  split <;> simp_all

theorem rl_full (D : Dir) (h : ¬ D.used < cap) : Tunnel.recvLoop D = D := by rw [Tunnel.recvLoop.eq_def, dif_neg h]

theorem sl_nil (D : Dir) (h : D.buf = []) : Tunnel.sendLoop D = (D, .drained) := by
  rw [Tunnel.sendLoop.eq_def]; split <;> simp_all

theorem sl_none (D : Dir) (h : D.buf ≠ []) (hd : D.dst = []) : Tunnel.sendLoop D = ({ D with dstWait := true }, .again) := by
  rw [Tunnel.sendLoop.eq_def]
  split
  · contradiction
  · split <;> simp_all

theorem sl_again (D : Dir) (h : D.buf ≠ []) (t : List Tx) (hd : D.dst = .again :: t) :
    Tunnel.sendLoop D = ({ D with dst := t, dstWait := true }, .again) := by
  rw [Tunnel.sendLoop.eq_def]
  split
  · contradiction
  · split <;> simp_all

theorem sl_fail (D : Dir) (h : D.buf ≠ []) (t : List Tx) (hd : D.dst = .fail :: t) : Tunnel.sendLoop D = (D, .fail) := by
  rw [Tunnel.sendLoop.eq_def]
  split
  · contradiction
  · split <;> simp_all

theorem sl_sent (D : Dir) (h : D.buf ≠ []) (n : Nat) (t : List Tx) (hd : D.dst = .sent n :: t) :
    Tunnel.sendLoop D = Tunnel.sendLoop { D with buf := D.buf.drop n, out := D.out ++ D.buf.take n, dst := t, dstWait := false } := by
  conv => lhs; rw [Tunnel.sendLoop.eq_def]
  split
  · contradiction
  · split <;> simp_all

theorem recvLoop_abs (mem : Memory) (d : MDir) (hc : Cur d) :
    abs (recvLoop mem d).1 (recvLoop mem d).2 = Tunnel.recvLoop (abs mem d) ∧ Cur (recvLoop mem d).2 ∧ Same d (recvLoop mem d).2 ∧
      Fr d.start mem (recvLoop mem d).1 := by
  fun_induction recvLoop mem d with
  | case1 mem d h hs =>
    refine ⟨?_, hc, ⟨rfl, rfl⟩, Fr.refl _ _⟩
    rw [rl_nil _ h hs]; rfl
  | case2 mem d h t hs =>
    refine ⟨?_, hc, ⟨rfl, rfl⟩, Fr.refl _ _⟩
    rw [rl_again _ h t hs]; rfl
  | case3 mem d h t hs =>
    refine ⟨?_, hc, ⟨rfl, rfl⟩, Fr.refl _ _⟩
    rw [rl_fail _ h t hs]; rfl
  | case4 mem d h b bs t hs n ih =>
    have hn : ((b :: bs).take n).length = min n (bs.length + 1) := by simp
    obtain ⟨h1, h2, h3, h4⟩ := ih ⟨by dsimp only; have := hc.1; omega, by dsimp only; omega⟩
    refine ⟨?_, h2, h3, ?_⟩
    · rw [h1, rl_data (abs mem d) h b bs t hs]
      have hb : rd (wr mem (d.start + d.last) ((b :: bs).take n)) (d.start + d.pos) (d.last + min n (bs.length + 1) - d.pos) =
          rd mem (d.start + d.pos) (d.last - d.pos) ++ (b :: bs).take n := by
        have hp := hc.1
        have e : d.last + min n (bs.length + 1) - d.pos = (d.last - d.pos) + min n (bs.length + 1) := by omega
        rw [e, rd_add]
        congr 1
        · apply rd_congr
          intro x _ hx
          simp only [wr]
          rw [if_neg (by omega)]
        · have e2 : d.start + d.pos + (d.last - d.pos) = d.start + d.last := by omega
          rw [e2, ← hn, rd_wr]
      simp only [abs, hb]
      rfl
    · refine Fr.trans ?_ h4
      intro x hx
      simp only [wr]
      rw [if_neg]
      rw [hn]
      have := hc.2
      omega
  | case5 mem d h =>
    refine ⟨?_, hc, ⟨rfl, rfl⟩, Fr.refl _ _⟩
    rw [rl_full _ h]

theorem sendLoop_abs (mem : Memory) (d : MDir) (hc : Cur d) :
    (abs mem (sendLoop mem d).1, (sendLoop mem d).2) = Tunnel.sendLoop (abs mem d) ∧ Cur (sendLoop mem d).1 ∧ Same d (sendLoop mem d).1 := by
  have ne : ∀ d : MDir, d.last - d.pos > 0 → (abs mem d).buf ≠ [] := by
    intro d h e
    have := congrArg List.length e
    simp only [abs, rd_length, List.length_nil] at this
    omega
  fun_induction sendLoop mem d with
  | case1 d h hd =>
    refine ⟨?_, hc, ⟨rfl, rfl⟩⟩
    rw [sl_none _ (ne d h) hd]; rfl
  | case2 d h t hd =>
    refine ⟨?_, hc, ⟨rfl, rfl⟩⟩
    rw [sl_again _ (ne d h) t hd]; rfl
  | case3 d h t hd =>
    refine ⟨?_, hc, ⟨rfl, rfl⟩⟩
    rw [sl_fail _ (ne d h) t hd]
  | case4 d h n t hd k ih =>
    obtain ⟨h1, h2, h3⟩ := ih ⟨by dsimp only; omega, hc.2⟩
    refine ⟨?_, h2, h3⟩
    rw [h1, sl_sent (abs mem d) (ne d h) n t hd]
    have e1 : (abs mem d).buf.take n = rd mem (d.start + d.pos) k := rd_take _ _ _ _
    have e2 : (abs mem d).buf.drop n = rd mem (d.start + (d.pos + k)) (d.last - (d.pos + k)) := by
      show (rd mem (d.start + d.pos) (d.last - d.pos)).drop n = _
      rw [rd_drop]
      have : d.last - d.pos - min n (d.last - d.pos) = d.last - (d.pos + k) := by omega
      rw [this, ← Nat.add_assoc]
    rw [e1, e2]
    rfl
  | case5 d h =>
    refine ⟨?_, hc, ⟨rfl, rfl⟩⟩
    rw [sl_nil]
    have e : d.last - d.pos = 0 := by omega
    simp [abs, e, rd_zero]

/-- What a handler's result stands for. -/
def absRes (mem : Memory) : MRes → Res
  | .wait d => .wait (abs mem d)
  | .eofClose d => .eofClose (abs mem d)
  | .sendFail d => .sendFail (abs mem d)

/-- The direction in a result. -/
def MRes.d : MRes → MDir
  | .wait d => d
  | .eofClose d => d
  | .sendFail d => d

theorem abs_rearm (mem : Memory) (d : MDir) : abs mem (rearm d) = Tunnel.rearm (abs mem d) := by
  simp [abs, rearm, Tunnel.rearm, rd_zero]

theorem abs_buf_nil {mem : Memory} {d : MDir} : (abs mem d).buf = [] ↔ ¬ d.last - d.pos > 0 := by
  rw [← List.length_eq_zero_iff]
  simp [abs]

theorem trafficSend_abs (mem : Memory) (d : MDir) (hc : Cur d) :
    absRes (trafficSend mem d).1 (trafficSend mem d).2 = Tunnel.trafficSend (abs mem d) ∧ Cur (trafficSend mem d).2.d ∧
      Same d (trafficSend mem d).2.d ∧ Fr d.start mem (trafficSend mem d).1 := by
  fun_induction trafficSend mem d with
  | case1 mem d d1 hs =>
    obtain ⟨h1, h2, h3⟩ := sendLoop_abs mem d hc
    rw [hs] at h1 h2 h3
    refine ⟨?_, h2, h3, Fr.refl _ _⟩
    rw [Tunnel.trafficSend.eq_def]
    split <;> simp_all [absRes]
  | case2 mem d d1 hs =>
    obtain ⟨h1, h2, h3⟩ := sendLoop_abs mem d hc
    rw [hs] at h1 h2 h3
    refine ⟨?_, h2, h3, Fr.refl _ _⟩
    rw [Tunnel.trafficSend.eq_def]
    split <;> simp_all [absRes]
  | case3 mem d d1 hs he =>
    obtain ⟨h1, h2, h3⟩ := sendLoop_abs mem d hc
    rw [hs] at h1 h2 h3
    refine ⟨?_, h2, h3, Fr.refl _ _⟩
    rw [Tunnel.trafficSend.eq_def]
    have : (abs mem d1).eof = d1.eof := rfl
    split <;> simp_all [absRes]
  | case4 mem d d1 hs he r hb ih =>
    obtain ⟨h1, h2, h3⟩ := sendLoop_abs mem d hc
    rw [hs] at h1 h2 h3
    obtain ⟨g1, g2, g3, g4⟩ := recvLoop_abs mem (rearm d1) ⟨Nat.le_refl _, Nat.zero_le _⟩
    obtain ⟨i1, i2, i3, i4⟩ := ih g2
    have es : d.start = (recvLoop mem (rearm d1)).2.start := by rw [g3.2]; exact h3.2.symm
    refine ⟨?_, i2, ⟨i3.1.trans (g3.1.trans h3.1), i3.2.trans (g3.2.trans h3.2)⟩, ?_⟩
    · rw [i1]
      conv => rhs; rw [Tunnel.trafficSend.eq_def]
      have : (abs mem d1).eof = d1.eof := rfl
      dsimp only at h1
      split
      · next x hx => rw [← h1] at hx; simp at hx
      · next x hx => rw [← h1] at hx; simp at hx
      · next x hx =>
        rw [← h1] at hx
        simp only [Prod.mk.injEq, and_true] at hx
        subst hx
        rw [if_neg (by rw [this]; exact he)]
        dsimp only
        rw [← abs_rearm, ← g1]
        rw [dif_neg (by rw [abs_buf_nil]; exact fun h => h hb)]
        rfl
    · have i4' := i4
      have g4' : Fr d.start mem r.1 := by
        have : (rearm d1).start = d.start := h3.2
        rw [← this]; exact g4
      refine Fr.trans g4' ?_
      rw [es]; exact i4
  | case5 mem d d1 hs he r hb hr =>
    obtain ⟨h1, h2, h3⟩ := sendLoop_abs mem d hc
    rw [hs] at h1 h2 h3
    obtain ⟨g1, g2, g3, g4⟩ := recvLoop_abs mem (rearm d1) ⟨Nat.le_refl _, Nat.zero_le _⟩
    refine ⟨?_, g2, ⟨g3.1.trans h3.1, g3.2.trans h3.2⟩, ?_⟩
    · rw [Tunnel.trafficSend.eq_def]
      have : (abs mem d1).eof = d1.eof := rfl
      dsimp only at h1
      split
      · next x hx => rw [← h1] at hx; simp at hx
      · next x hx => rw [← h1] at hx; simp at hx
      · next x hx =>
        rw [← h1] at hx
        simp only [Prod.mk.injEq, and_true] at hx
        subst hx
        rw [if_neg (by rw [this]; exact he)]
        dsimp only
        rw [← abs_rearm, ← g1]
        rw [dif_pos (by rw [abs_buf_nil]; exact hb), if_pos (by exact hr)]
        rfl
    · have : (rearm d1).start = d.start := h3.2
      rw [← this]; exact g4
  | case6 mem d d1 hs he r hb hr =>
    obtain ⟨h1, h2, h3⟩ := sendLoop_abs mem d hc
    rw [hs] at h1 h2 h3
    obtain ⟨g1, g2, g3, g4⟩ := recvLoop_abs mem (rearm d1) ⟨Nat.le_refl _, Nat.zero_le _⟩
    refine ⟨?_, g2, ⟨g3.1.trans h3.1, g3.2.trans h3.2⟩, ?_⟩
    · rw [Tunnel.trafficSend.eq_def]
      have : (abs mem d1).eof = d1.eof := rfl
      dsimp only at h1
      split
      · next x hx => rw [← h1] at hx; simp at hx
      · next x hx => rw [← h1] at hx; simp at hx
      · next x hx =>
        rw [← h1] at hx
        simp only [Prod.mk.injEq, and_true] at hx
        subst hx
        rw [if_neg (by rw [this]; exact he)]
        dsimp only
        rw [← abs_rearm, ← g1]
        rw [dif_pos (by rw [abs_buf_nil]; exact hb), if_neg (by exact hr)]
        rfl
    · have : (rearm d1).start = d.start := h3.2
      rw [← this]; exact g4

theorem trafficRecv_abs (mem : Memory) (d : MDir) (hc : Cur d) :
    absRes (trafficRecv mem d).1 (trafficRecv mem d).2 = Tunnel.trafficRecv (abs mem d) ∧ Cur (trafficRecv mem d).2.d ∧
      Same d (trafficRecv mem d).2.d ∧ Fr d.start mem (trafficRecv mem d).1 := by
  obtain ⟨g1, g2, g3, g4⟩ := recvLoop_abs mem d hc
  unfold trafficRecv Tunnel.trafficRecv
  dsimp only
  rw [← g1]
  by_cases hb : (recvLoop mem d).2.last - (recvLoop mem d).2.pos > 0
  · rw [if_pos hb, if_neg (by rw [abs_buf_nil]; exact fun h => h hb)]
    obtain ⟨i1, i2, i3, i4⟩ := trafficSend_abs (recvLoop mem d).1 { (recvLoop mem d).2 with readCb := false, writeCb := true } g2
    refine ⟨i1, i2, ⟨i3.1.trans g3.1, i3.2.trans g3.2⟩, Fr.trans g4 ?_⟩
    have : d.start = (recvLoop mem d).2.start := g3.2.symm
    rw [this]; exact i4
  · have hb' : (abs (recvLoop mem d).1 (recvLoop mem d).2).buf = [] := abs_buf_nil.mpr hb
    rw [if_neg hb, if_pos hb']
    by_cases hr : (recvLoop mem d).2.eof = true
    · have hr' : (abs (recvLoop mem d).1 (recvLoop mem d).2).eof = true := hr
      rw [if_pos hr, if_pos hr']
      exact ⟨rfl, g2, g3, g4⟩
    · have hr' : ¬ (abs (recvLoop mem d).1 (recvLoop mem d).2).eof = true := hr
      rw [if_neg hr, if_neg hr']
      exact ⟨rfl, g2, g3, g4⟩

/-- A direction with its buffer in place, standing for `t`. -/
structure DA (mem : Memory) (d : MDir) (t : Dir) : Prop where
  eq : abs mem d = t
  cur : Cur d

theorem DA.frame {mem mem' : Memory} {d : MDir} {t : Dir} (h : DA mem d t)
    (hm : ∀ x, d.start ≤ x → x < d.start + cap → mem' x = mem x) : DA mem' d t := by
  refine ⟨?_, h.cur⟩
  rw [← h.eq]
  unfold abs
  rw [rd_congr]
  intro x h1 h2
  have := h.cur.1
  have := h.cur.2
  exact hm x (by omega) (by omega)

/-- Two buffers apart. -/
def Apart (a b : Nat) : Prop := ∀ x, ¬ (a ≤ x ∧ x < a + cap ∧ b ≤ x ∧ x < b + cap)

/-- A session on memory and the session on lists it stands for. -/
structure SA (mem : Memory) (s : MSess) (t : Sess) : Prop where
  closed : s.closed = t.closed
  upOut : s.up.out = t.up.out
  downOut : s.down.out = t.down.out
  dirs : s.closed = none → DA mem s.up t.up ∧ DA mem s.down t.down

/-- What a handler stores is inside the session's two buffers, which stay where they are. -/
structure Keeps (mem mem' : Memory) (s s' : MSess) : Prop where
  up : Same s.up s'.up
  down : Same s.down s'.down
  mem : ∀ x, ¬ (s.up.start ≤ x ∧ x < s.up.start + cap) → ¬ (s.down.start ≤ x ∧ x < s.down.start + cap) → mem' x = mem x

theorem put_abs {mem mem' : Memory} {s : MSess} {t : Sess} (hs : s.closed = none) (ht : t.closed = none) (hu : DA mem s.up t.up)
    (hd : DA mem s.down t.down) (ha : Apart s.up.start s.down.start) (side : Side) (r : MRes) (hc : Cur r.d) (hsm : Same (s.dir side) r.d)
    (hf : Fr (s.dir side).start mem mem') : SA mem' (s.put side r) (t.put side (absRes mem' r)) ∧ Keeps mem mem' s (s.put side r) := by
  cases side with
  | up =>
    have hd' : DA mem' s.down t.down := hd.frame fun x h1 h2 => hf x (fun h3 => ha x ⟨h3.1, h3.2, h1, h2⟩)
    constructor
    · cases r with
      | wait d =>
        exact ⟨by simp [MSess.put, MSess.setDir, Sess.put, absRes, Sess.setDir, hs, ht], rfl, hd'.eq ▸ rfl, fun _ => ⟨⟨rfl, hc⟩, hd'⟩⟩
      | eofClose d => exact ⟨rfl, rfl, hd'.eq ▸ rfl, fun h => by simp [MSess.put] at h⟩
      | sendFail d => exact ⟨rfl, rfl, hd'.eq ▸ rfl, fun h => by simp [MSess.put] at h⟩
    · cases r <;> exact ⟨hsm, ⟨rfl, rfl⟩, fun x h1 _ => hf x h1⟩
  | down =>
    have hu' : DA mem' s.up t.up := hu.frame fun x h1 h2 => hf x (fun h3 => ha x ⟨h1, h2, h3.1, h3.2⟩)
    constructor
    · cases r with
      | wait d =>
        exact ⟨by simp [MSess.put, MSess.setDir, Sess.put, absRes, Sess.setDir, hs, ht], hu'.eq ▸ rfl, rfl, fun _ => ⟨hu', ⟨rfl, hc⟩⟩⟩
      | eofClose d => exact ⟨rfl, hu'.eq ▸ rfl, rfl, fun h => by simp [MSess.put] at h⟩
      | sendFail d => exact ⟨rfl, hu'.eq ▸ rfl, rfl, fun h => by simp [MSess.put] at h⟩
    · cases r <;> exact ⟨⟨rfl, rfl⟩, hsm, fun x _ h2 => hf x h2⟩

theorem stepSess_abs {mem : Memory} {s : MSess} {t : Sess} (h : SA mem s t) (hs : s.closed = none) (ha : Apart s.up.start s.down.start)
    (e : Event) : SA (stepSess mem s e).1 (stepSess mem s e).2 (Tunnel.step t e) ∧ Keeps mem (stepSess mem s e).1 s (stepSess mem s e).2 := by
  obtain ⟨hu, hd⟩ := h.dirs hs
  have ht : t.closed = none := by rw [← h.closed]; exact hs
  have hside : ∀ side, DA mem (s.dir side) (t.dir side) := by
    intro side; cases side
    · exact hu
    · exact hd
  have flag : ∀ side (d : MDir) (D : Dir), abs mem d = D → Cur d → Same (s.dir side) d →
      SA mem (s.setDir side d) (t.setDir side D) ∧ Keeps mem mem s (s.setDir side d) := by
    intro side d D e1 e2 e3
    have := put_abs hs ht hu hd ha side (.wait d) e2 e3 (Fr.refl _ mem)
    simpa only [MSess.put, Sess.put, absRes, e1] using this
  unfold stepSess Tunnel.step
  rw [hs, ht]
  dsimp only
  cases e with
  | timeout =>
    exact ⟨⟨rfl, h.upOut, h.downOut, fun h => by simp at h⟩, ⟨⟨rfl, rfl⟩, ⟨rfl, rfl⟩, fun _ _ _ => rfl⟩⟩
  | readable side =>
    dsimp only
    have hab := (hside side).eq
    have hcb : (t.dir side).readCb = (s.dir side).readCb := by rw [← hab]; rfl
    have ha2 : abs mem { s.dir side with srcWait := false } = { t.dir side with srcWait := false } := by rw [← hab]; rfl
    by_cases hr : (s.dir side).readCb = true
    · rw [if_pos hr, if_pos (hcb.trans hr)]
      obtain ⟨g1, g2, g3, g4⟩ := trafficRecv_abs mem { s.dir side with srcWait := false } (hside side).cur
      rw [← ha2, ← g1]
      exact put_abs hs ht hu hd ha side _ g2 g3 g4
    · rw [if_neg hr, if_neg (fun e => hr (hcb ▸ e))]
      exact flag side _ _ ha2 (hside side).cur ⟨rfl, rfl⟩
  | writable side =>
    dsimp only
    have hab := (hside side).eq
    have hcb : (t.dir side).writeCb = (s.dir side).writeCb := by rw [← hab]; rfl
    have ha2 : abs mem { s.dir side with dstWait := false } = { t.dir side with dstWait := false } := by rw [← hab]; rfl
    by_cases hr : (s.dir side).writeCb = true
    · rw [if_pos hr, if_pos (hcb.trans hr)]
      obtain ⟨g1, g2, g3, g4⟩ := trafficSend_abs mem { s.dir side with dstWait := false } (hside side).cur
      rw [← ha2, ← g1]
      exact put_abs hs ht hu hd ha side _ g2 g3 g4
    · rw [if_neg hr, if_neg (fun e => hr (hcb ▸ e))]
      exact flag side _ _ ha2 (hside side).cur ⟨rfl, rfl⟩

end Verif.Worker
