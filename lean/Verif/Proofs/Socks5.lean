import Verif.Model.Socks5
import Verif.Spec.Socks5
import Verif.Proofs.Recv
namespace Verif.S5
open Verif

/-- Consecutive stores into an array. -/
def writeAt : List UInt8 → Nat → List UInt8 → List UInt8
  | l, _, [] => l
  | l, c, b :: bs => writeAt (l.set c b) (c + 1) bs

theorem writeAt_eq (l : List UInt8) (c : Nat) (bs : List UInt8) (h : c + bs.length ≤ l.length) :
    writeAt l c bs = l.take c ++ bs ++ l.drop (c + bs.length) := by
  induction bs generalizing l c with
  | nil => simp [writeAt]
  | cons b bs ih =>
    simp only [List.length_cons] at h
    rw [writeAt, ih _ _ (by simp; omega)]
    have h1 : c < l.length := by omega
    rw [List.take_set, List.drop_set_of_lt (by omega), List.take_succ_eq_append_getElem h1]
    rw [List.set_append_right _ _ (by simp; omega)]
    simp [Nat.min_eq_left (Nat.le_of_lt h1)]
    congr 1; omega

theorem writeAt_length (l : List UInt8) (c : Nat) (bs : List UInt8) :
    (writeAt l c bs).length = l.length := by
  induction bs generalizing l c with
  | nil => rfl
  | cons b bs ih => simp [writeAt, ih]

theorem u8_succ_toNat (c : UInt8) (h : c.toNat < 255) : (c + 1).toNat = c.toNat + 1 := by
  simp [UInt8.toNat_add]; omega

/-- The parser is filling the address array up to `n`. -/
def Filling (s : P2) (n : UInt8) : Prop :=
  (s.state = TYP_V4 ∧ n = 4) ∨ (s.state = TYP_V6 ∧ n = 16) ∨ (s.state = TYP_DOMAIN ∧ n = s.addrN)

theorem Filling.byte {s : P2} {n : UInt8} (h : Filling s n) (b : UInt8) :
    p2Byte s b = storeAddr s b n := by
  rcases h with ⟨h, rfl⟩ | ⟨h, rfl⟩ | ⟨h, rfl⟩ <;>
    simp [p2Byte, h, VER, CMD, RSV, TYP, TYP_V4, TYP_V6, TYP_DOMAINN, TYP_DOMAIN]

theorem feed_fill_part {s : P2} {n : UInt8} (hf : Filling s n) (bs : List UInt8)
    (h1 : s.addrCnt.toNat + bs.length ≤ 255) (h2 : n ≠ 0 → s.addrCnt.toNat + bs.length < n.toNat) :
    feed p2Byte s bs = .cont { s with
      addr := writeAt s.addr s.addrCnt.toNat bs
      addrCnt := UInt8.ofNat (s.addrCnt.toNat + bs.length) } := by
  induction bs generalizing s with
  | nil => simp [feed, writeAt]
  | cons b bs ih =>
    simp only [List.length_cons] at h1 h2
    have hlt : s.addrCnt.toNat < 255 := by omega
    have hs := u8_succ_toNat _ hlt
    have hne : s.addrCnt + 1 ≠ n := by
      intro he
      by_cases hn : n = 0
      · rw [he, hn] at hs; simp at hs
      · have := h2 hn; rw [← he, hs] at this; omega
    have hb : p2Byte s b = .cont { s with
        addr := s.addr.set s.addrCnt.toNat b, addrCnt := s.addrCnt + 1 } := by
      rw [hf.byte]; simp [storeAddr, hlt, hne]
    rw [feed, hb]; dsimp only
    rw [ih (s := { s with addr := s.addr.set s.addrCnt.toNat b, addrCnt := s.addrCnt + 1 }) hf
      (by simp only [hs]; omega) (by intro h; have := h2 h; simp only [hs]; omega)]
    simp only [hs, writeAt, List.length_cons, Nat.add_assoc, Nat.add_comm 1]

theorem feed_fill_full {s : P2} {n : UInt8} (hf : Filling s n) (bs : List UInt8) (_hn : n ≠ 0)
    (hbs : bs ≠ []) (h2 : s.addrCnt.toNat + bs.length = n.toNat) :
    feed p2Byte s bs = .cont { s with
      addr := writeAt s.addr s.addrCnt.toNat bs, addrCnt := n, state := PORT } := by
  have hn255 : n.toNat ≤ 255 := by have := n.toNat_lt; omega
  induction bs generalizing s with
  | nil => exact absurd rfl hbs
  | cons b bs ih =>
    simp only [List.length_cons] at h2
    have hlt : s.addrCnt.toNat < 255 := by omega
    have hs := u8_succ_toNat _ hlt
    by_cases hnil : bs = []
    · subst hnil
      have he : s.addrCnt + 1 = n := by apply UInt8.toNat_inj.mp; rw [hs]; simpa using h2
      simp [feed, hf.byte, storeAddr, hlt, he, writeAt]
    · have hlen : 0 < bs.length := List.length_pos_iff.mpr hnil
      have hne : s.addrCnt + 1 ≠ n := by
        intro he; rw [← he, hs] at h2; omega
      have hb : p2Byte s b = .cont { s with
          addr := s.addr.set s.addrCnt.toNat b, addrCnt := s.addrCnt + 1 } := by
        rw [hf.byte]; simp [storeAddr, hlt, hne]
      rw [feed, hb]; dsimp only
      rw [ih (s := { s with addr := s.addr.set s.addrCnt.toNat b, addrCnt := s.addrCnt + 1 }) hf hnil
        (by simp only [hs]; omega)]
      simp only [hs, writeAt]

theorem feed_fill_oob {s : P2} (hf : Filling s 0) (bs : List UInt8) (h0 : s.addrCnt = 0)
    (h : 256 ≤ bs.length) : feed p2Byte s bs = .stop .oob := by
  rw [← List.take_append_drop 255 bs, feed_append]
  have hl : (bs.take 255).length = 255 := by simp; omega
  rw [feed_fill_part hf _ (by simp [h0, hl]) (by simp)]
  dsimp only
  cases hd : bs.drop 255 with
  | nil => have := List.drop_eq_nil_iff.mp hd; omega
  | cons b t =>
    rw [feed, Filling.byte (n := 0) (by exact hf)]
    simp [storeAddr, h0, hl]

theorem p2End_cases (s : P2) : (∃ r, p2End s = .stop r) := by
  unfold p2End; split <;> exact ⟨_, rfl⟩

/-- The last two bytes of a request. -/
theorem feed_port {s : P2} (hs : s.state = PORT) (p0 p1 : UInt8) (t : List UInt8) :
    feed p2Byte s (p0 :: p1 :: t) = p2End { s with port0 := p0, port1 := p1, state := END } := by
  have h0 : p2Byte s p0 = .cont { s with port0 := p0, state := END } := by
    simp [p2Byte, hs, VER, CMD, RSV, TYP, TYP_V4, TYP_V6, TYP_DOMAINN, TYP_DOMAIN, PORT]
  have h1 : p2Byte { s with port0 := p0, state := END } p1 =
      p2End { s with port0 := p0, port1 := p1, state := END } := by
    simp [p2Byte, VER, CMD, RSV, TYP, TYP_V4, TYP_V6, TYP_DOMAINN, TYP_DOMAIN, PORT, END]
  rw [feed, h0]; dsimp only; rw [feed, h1]
  obtain ⟨r, h⟩ := p2End_cases { s with port0 := p0, port1 := p1, state := END }
  rw [h]

theorem feed_port_short {s : P2} (hs : s.state = PORT) (bs : List UInt8) (h : bs.length < 2) :
    ∃ s', feed p2Byte s bs = .cont s' := by
  match bs, h with
  | [], _ => exact ⟨s, rfl⟩
  | [b], _ =>
    refine ⟨{ s with port0 := b, state := END }, ?_⟩
    simp [feed, p2Byte, hs, VER, CMD, RSV, TYP, TYP_V4, TYP_V6, TYP_DOMAINN, TYP_DOMAIN, PORT]

/-- The record after the first four bytes. -/
def hdr (v c r t : UInt8) (st : Nat) (n : UInt8) : P2 :=
  { P2.init with ver := v, cmd := c, rsv := r, atyp := t, state := st, addrN := n, addrCnt := 0 }

theorem feed_hdr (v c r t : UInt8) (rest : List UInt8) :
    feed p2Byte P2.init (v :: c :: r :: t :: rest) =
      if t = 1 then feed p2Byte (hdr v c r t TYP_V4 4) rest
      else if t = 4 then feed p2Byte (hdr v c r t TYP_V6 16) rest
      else if t = 3 then feed p2Byte (hdr v c r t TYP_DOMAINN 0) rest
      else .stop .close := by
  unfold hdr
  have hst : P2.init.state = VER := rfl
  generalize P2.init = s at hst ⊢
  simp only [feed, p2Byte, hst, VER, CMD, RSV, TYP, IPV4, IPV6, DOMAIN]
  simp
  by_cases h1 : t = 1
  · simp [h1]
  by_cases h4 : t = 4
  · simp [h4]
  by_cases h3 : t = 3
  · simp [h3]
  simp [h1, h3, h4]

theorem feed_short (w : List UInt8) (h : w.length < 4) : ∃ s', feed p2Byte P2.init w = .cont s' := by
  match w, h with
  | [], _ => exact ⟨_, rfl⟩
  | [_], _ => exact ⟨_, rfl⟩
  | [_, _], _ => exact ⟨_, rfl⟩
  | [_, _, _], _ => exact ⟨_, rfl⟩

theorem feed_domainn (v c r n : UInt8) (rest : List UInt8) :
    feed p2Byte (hdr v c r 3 TYP_DOMAINN 0) (n :: rest) = feed p2Byte (hdr v c r 3 TYP_DOMAIN n) rest := by
  rfl

/-- The result of a complete address of `n` bytes followed by a port. -/
theorem feed_complete {s : P2} {n : UInt8} (hf : Filling s n) (hc : s.addrCnt = 0) (hn : n ≠ 0)
    (bs : List UInt8) (hbs : bs.length = n.toNat) (p0 p1 : UInt8) (t : List UInt8) :
    feed p2Byte s (bs ++ p0 :: p1 :: t) = p2End { s with
      addr := writeAt s.addr 0 bs, addrCnt := n, port0 := p0, port1 := p1, state := END } := by
  have hne : bs ≠ [] := by
    rintro rfl; apply hn; apply UInt8.toNat_inj.mp; simpa using hbs.symm
  rw [feed_append, feed_fill_full hf bs hn hne (by simp [hc, hbs])]
  dsimp only
  rw [feed_port (by rfl)]
  simp [hc]

/-- An incomplete address or port. -/
theorem feed_incomplete {s : P2} {n : UInt8} (hf : Filling s n) (hc : s.addrCnt = 0) (hn : n ≠ 0)
    (bs : List UInt8) (hbs : bs.length < n.toNat + 2) : ∃ s', feed p2Byte s bs = .cont s' := by
  have hn255 : n.toNat ≤ 255 := by have := n.toNat_lt; omega
  by_cases h : bs.length < n.toNat
  · exact ⟨_, feed_fill_part hf bs (by simp [hc]; omega) (by intro _; simp [hc]; omega)⟩
  · have hn0 : 0 < n.toNat := by
      rcases Nat.eq_zero_or_pos n.toNat with h0 | h0
      · exact absurd (UInt8.toNat_inj.mp (by simpa using h0)) hn
      · exact h0
    rw [← List.take_append_drop n.toNat bs, feed_append]
    have hl : (bs.take n.toNat).length = n.toNat := by simp; omega
    rw [feed_fill_full hf _ hn (by intro h; rw [h] at hl; simp at hl; omega) (by simp [hc, hl])]
    exact feed_port_short (by rfl) _ (by simp; omega)

/-- Split a list at `n` with two more elements. -/
theorem split_at (bs : List UInt8) (n : Nat) (h : n + 2 ≤ bs.length) :
    ∃ a p0 p1 t, bs = a ++ p0 :: p1 :: t ∧ a.length = n := by
  refine ⟨bs.take n, bs[n]'(by omega), bs[n+1]'(by omega), bs.drop (n + 2), ?_, by simp; omega⟩
  rw [List.getElem_cons_drop, List.getElem_cons_drop, List.take_append_drop]

/-- Complete description of the request automaton on every byte string. -/
inductive P2Shape : List UInt8 → Step P2 P2Res → Prop
  | more {w s} : w.length < 263 → P2Shape w (.cont s)
  | badType {v c r t rest} : t ≠ 1 → t ≠ 3 → t ≠ 4 → P2Shape (v :: c :: r :: t :: rest) (.stop .close)
  | v6 {v c r rest} : 18 ≤ rest.length → P2Shape (v :: c :: r :: 4 :: rest) (.stop .close)
  | v4 {v c r a b c' d p0 p1 rest} :
      P2Shape (v :: c :: r :: 1 :: a :: b :: c' :: d :: p0 :: p1 :: rest)
        (p2End { hdr v c r 1 END 4 with addr := writeAt (List.replicate 255 0) 0 [a, b, c', d], addrCnt := 4, port0 := p0, port1 := p1 })
  | name {v c r n bs p0 p1 rest} : n ≠ 0 → bs.length = n.toNat →
      P2Shape (v :: c :: r :: 3 :: n :: (bs ++ p0 :: p1 :: rest))
        (p2End { hdr v c r 3 END n with addr := writeAt (List.replicate 255 0) 0 bs, addrCnt := n, port0 := p0, port1 := p1 })
  | zero {v c r rest} : 256 ≤ rest.length → P2Shape (v :: c :: r :: 3 :: 0 :: rest) (.stop .oob)

theorem feed_shape (w : List UInt8) : P2Shape w (feed p2Byte P2.init w) := by
  by_cases h4 : w.length < 4
  · obtain ⟨s', hs⟩ := feed_short w h4
    rw [hs]; exact .more (by omega)
  · match w, h4 with
    | [], h => simp at h
    | [_], h => simp at h
    | [_, _], h => simp at h
    | [_, _, _], h => simp at h
    | v :: c :: r :: t :: rest, _ =>
      rw [feed_hdr]
      by_cases h1 : t = 1
      · subst h1
        rw [if_pos rfl]
        have hf : Filling (hdr v c r 1 TYP_V4 4) 4 := .inl ⟨rfl, rfl⟩
        by_cases hl : rest.length < 6
        · obtain ⟨s', hs⟩ := feed_incomplete hf rfl (by decide) rest (by simpa using hl)
          rw [hs]; exact .more (by simp; omega)
        · obtain ⟨a, p0, p1, t, rfl, ha⟩ := split_at rest 4 (by omega)
          rw [feed_complete hf rfl (by decide) a (by simpa using ha)]
          match a, ha with
          | [a, b, c', d], _ => exact .v4
      by_cases h4 : t = 4
      · subst h4
        rw [if_neg (by decide), if_pos rfl]
        have hf : Filling (hdr v c r 4 TYP_V6 16) 16 := .inr (.inl ⟨rfl, rfl⟩)
        by_cases hl : rest.length < 18
        · obtain ⟨s', hs⟩ := feed_incomplete hf rfl (by decide) rest (by simpa using hl)
          rw [hs]; exact .more (by simp; omega)
        · obtain ⟨a, p0, p1, t, rfl, ha⟩ := split_at rest 16 (by omega)
          rw [feed_complete hf rfl (by decide) a (by simpa using ha)]
          have : p2End { hdr v c r 4 TYP_V6 16 with addr := writeAt (hdr v c r 4 TYP_V6 16).addr 0 a, addrCnt := 16, port0 := p0, port1 := p1, state := END } = .stop .close := by
            simp [p2End, hdr, IPV6]
          rw [this]; exact .v6 (by omega)
      by_cases h3 : t = 3
      · subst h3
        rw [if_neg (by decide), if_neg (by decide), if_pos rfl]
        match rest with
        | [] => exact .more (by simp)
        | n :: rest =>
          rw [feed_domainn]
          have hf : Filling (hdr v c r 3 TYP_DOMAIN n) n := .inr (.inr ⟨rfl, rfl⟩)
          by_cases hn : n = 0
          · subst hn
            by_cases hl : rest.length < 256
            · rw [feed_fill_part hf rest (by simp [hdr]; omega) (by simp)]
              exact .more (by simp; omega)
            · rw [feed_fill_oob hf rest rfl (by omega)]
              exact .zero (by omega)
          · by_cases hl : rest.length < n.toNat + 2
            · obtain ⟨s', hs⟩ := feed_incomplete hf rfl hn rest hl
              rw [hs]; exact .more (by have := n.toNat_lt; simp; omega)
            · obtain ⟨a, p0, p1, t, rfl, ha⟩ := split_at rest n.toNat (by omega)
              rw [feed_complete hf rfl hn a ha]
              exact .name hn ha
      · rw [if_neg h1, if_neg h4, if_neg h3]; exact .badType h1 h3 h4

theorem p2_bounded (w : List UInt8) : Bounded p2Byte P2.init metaN w := by
  intro p s' _ hp
  have h := feed_shape p
  rw [hp] at h
  generalize hx : Step.cont s' = x at h
  cases h with
  | more h => simp [metaN]; omega
  | v4 => obtain ⟨r, h⟩ := p2End_cases _; rw [h] at hx; cases hx
  | name => obtain ⟨r, h⟩ := p2End_cases _; rw [h] at hx; cases hx
  | _ => cases hx

/-- The request parser's behaviour depends on the byte stream only. -/
theorem p2Req_eq (l : List Rx) : p2Req l = match feed p2Byte P2.init (streamOf l) with
      | .stop r => .stopped r
      | .cont s' => if failsAtEnd l then .closed else .waiting s' (metaN - (streamOf l).length) [] :=
  by unfold p2Req; rw [drive_spec _ _ _ _ (p2_bounded _)]; cases feed p2Byte P2.init (streamOf l) <;> rfl

theorem cstr_append_zero (bs t : List UInt8) (h : (0 : UInt8) ∉ bs) : cstr (bs ++ 0 :: t) = some bs := by
  induction bs with
  | nil => simp [cstr]
  | cons b bs ih =>
    simp only [List.mem_cons, not_or] at h
    have := ih h.2
    have hb : b ≠ 0 := fun e => h.1 e.symm
    simp [cstr, hb, this]

theorem cstr_none (bs : List UInt8) (h : (0 : UInt8) ∉ bs) : cstr bs = none := by
  induction bs with
  | nil => rfl
  | cons b bs ih =>
    simp only [List.mem_cons, not_or] at h
    have hb : b ≠ 0 := fun e => h.1 e.symm
    simp [cstr, hb, ih h.2]

theorem feed_stop_append {σ ρ : Type} (f : σ → UInt8 → Step σ ρ) (s : σ) (a b : List UInt8) (r : ρ)
    (h : feed f s a = .stop r) : feed f s (a ++ b) = .stop r := by
  rw [feed_append, h]

/-! ### Greeting -/

theorem p1_fill_part {s : P1} (hf : s.state = METHOD) (bs : List UInt8)
    (h1 : s.methodsCnt.toNat + bs.length ≤ 255)
    (h2 : s.methodsN ≠ 0 → s.methodsCnt.toNat + bs.length < s.methodsN.toNat) :
    feed p1Byte s bs = .cont { s with
      methods := writeAt s.methods s.methodsCnt.toNat bs
      methodsCnt := UInt8.ofNat (s.methodsCnt.toNat + bs.length) } := by
  induction bs generalizing s with
  | nil => simp [feed, writeAt]
  | cons b bs ih =>
    simp only [List.length_cons] at h1 h2
    have hlt : s.methodsCnt.toNat < 255 := by omega
    have hs := u8_succ_toNat _ hlt
    have hne : s.methodsN ≠ s.methodsCnt + 1 := by
      intro he
      by_cases hn : s.methodsN = 0
      · rw [← he, hn] at hs; simp at hs
      · have := h2 hn; rw [he, hs] at this; omega
    have hb : p1Byte s b = .cont { s with
        methods := s.methods.set s.methodsCnt.toNat b, methodsCnt := s.methodsCnt + 1 } := by
      simp [p1Byte, hf, VERSION, METHODN, METHOD, hlt, hne]
    rw [feed, hb]; dsimp only
    rw [ih (s := { s with methods := s.methods.set s.methodsCnt.toNat b, methodsCnt := s.methodsCnt + 1 }) hf
      (by simp only [hs]; omega) (by intro h; have := h2 h; simp only [hs]; omega)]
    simp only [hs, writeAt, List.length_cons, Nat.add_assoc, Nat.add_comm 1]

theorem p1_fill_full {s : P1} (hf : s.state = METHOD) (bs t : List UInt8)
    (hbs : bs ≠ []) (h2 : s.methodsCnt.toNat + bs.length = s.methodsN.toNat) :
    feed p1Byte s (bs ++ t) = .stop (.done { s with
      methods := writeAt s.methods s.methodsCnt.toNat bs, methodsCnt := s.methodsN, state := 0 }) := by
  have hn255 : s.methodsN.toNat ≤ 255 := by have := s.methodsN.toNat_lt; omega
  induction bs generalizing s with
  | nil => exact absurd rfl hbs
  | cons b bs ih =>
    simp only [List.length_cons] at h2
    have hlt : s.methodsCnt.toNat < 255 := by omega
    have hs := u8_succ_toNat _ hlt
    by_cases hnil : bs = []
    · subst hnil
      have he : s.methodsCnt + 1 = s.methodsN := by apply UInt8.toNat_inj.mp; rw [hs]; simpa using h2
      simp [feed, p1Byte, hf, VERSION, METHODN, METHOD, hlt, he, writeAt]
    · have hlen : 0 < bs.length := List.length_pos_iff.mpr hnil
      have hne : s.methodsN ≠ s.methodsCnt + 1 := by
        intro he; rw [he, hs] at h2; omega
      have hb : p1Byte s b = .cont { s with
          methods := s.methods.set s.methodsCnt.toNat b, methodsCnt := s.methodsCnt + 1 } := by
        simp [p1Byte, hf, VERSION, METHODN, METHOD, hlt, hne]
      rw [List.cons_append, feed, hb]; dsimp only
      rw [ih (s := { s with methods := s.methods.set s.methodsCnt.toNat b, methodsCnt := s.methodsCnt + 1 }) hf hnil
        (by simp only [hs]; omega) hn255]
      simp only [hs, writeAt]

/-- The record after the first two bytes. -/
def hdr1 (v n : UInt8) : P1 := { P1.init with ver := v, methodsN := n, state := METHOD }

theorem p1_hdr (v n : UInt8) (rest : List UInt8) :
    feed p1Byte P1.init (v :: n :: rest) = feed p1Byte (hdr1 v n) rest := rfl

/-- Complete description of the greeting automaton. -/
inductive P1Shape : List UInt8 → Step P1 P1Res → Prop
  | more {w s} : w.length < 258 → (∀ v n rest, w = v :: n :: rest → n ≠ 0 → rest.length < n.toNat) → P1Shape w (.cont s)
  | full {v n bs rest} : n ≠ 0 → bs.length = n.toNat →
      P1Shape (v :: n :: (bs ++ rest))
        (.stop (.done { hdr1 v n with methods := writeAt (List.replicate 255 0) 0 bs, methodsCnt := n, state := 0 }))
  | zero {v rest} : 256 ≤ rest.length → P1Shape (v :: 0 :: rest) (.stop .oob)

theorem p1_shape (w : List UInt8) : P1Shape w (feed p1Byte P1.init w) := by
  match w with
  | [] => exact .more (by simp) (by simp)
  | [_] => exact .more (by simp) (by simp)
  | v :: n :: rest =>
    rw [p1_hdr]
    by_cases hn : n = 0
    · subst hn
      by_cases hl : rest.length < 256
      · rw [p1_fill_part rfl rest (by simp [hdr1, P1.init, -List.reduceReplicate]; omega) (by simp [hdr1])]
        refine .more (by simp; omega) ?_
        rintro _ _ _ h; cases h; simp
      · rw [← List.take_append_drop 255 rest, feed_append]
        have hlen : (rest.take 255).length = 255 := by simp; omega
        rw [p1_fill_part rfl _ (by simp [hdr1, P1.init, hlen, -List.reduceReplicate]) (by simp [hdr1])]
        dsimp only
        cases hd : rest.drop 255 with
        | nil => have := List.drop_eq_nil_iff.mp hd; omega
        | cons b t =>
          have : feed p1Byte { hdr1 v 0 with methods := writeAt (hdr1 v 0).methods (hdr1 v 0).methodsCnt.toNat (rest.take 255), methodsCnt := UInt8.ofNat ((hdr1 v 0).methodsCnt.toNat + (rest.take 255).length) } (b :: t) = .stop .oob := by
            simp [feed, p1Byte, hdr1, VERSION, METHODN, METHOD, hlen, P1.init, -List.reduceReplicate]
          rw [this]; exact .zero (by simp at hlen ⊢; omega)
    · by_cases hl : rest.length < n.toNat
      · have := n.toNat_lt
        rw [p1_fill_part rfl rest (by simp [hdr1, P1.init, -List.reduceReplicate]; omega) (by intro _; simpa [hdr1, P1.init, -List.reduceReplicate] using hl)]
        refine .more (by simp; omega) ?_
        rintro _ _ _ h; cases h; intro _; exact hl
      · have hn0 : 0 < n.toNat := by
          rcases Nat.eq_zero_or_pos n.toNat with h0 | h0
          · exact absurd (UInt8.toNat_inj.mp (by simpa using h0)) hn
          · exact h0
        rw [← List.take_append_drop n.toNat rest]
        have hlen : (rest.take n.toNat).length = n.toNat := by simp; omega
        rw [p1_fill_full rfl _ _ (by intro h; rw [h] at hlen; simp at hlen; omega) (by simp [hdr1, P1.init, -List.reduceReplicate]; omega)]
        exact .full hn hlen

theorem p1_bounded (w : List UInt8) : Bounded p1Byte P1.init metaN w := by
  intro p s' _ hp
  have h := p1_shape p
  rw [hp] at h
  cases h with
  | more h => simp [metaN]; omega

theorem p1Req_eq (l : List Rx) : p1Req l = match feed p1Byte P1.init (streamOf l) with
      | .stop r => .stopped r
      | .cont s' => if failsAtEnd l then .closed else .waiting s' (metaN - (streamOf l).length) [] :=
  by unfold p1Req; rw [drive_spec _ _ _ _ (p1_bounded _)]; cases feed p1Byte P1.init (streamOf l) <;> rfl

end Verif.S5
