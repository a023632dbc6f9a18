import Verif.Model.Upstream
import Verif.Proofs.NetSend
/-
Properties C05 and C06.
-/
namespace Verif.Ip4

theorem dec_digits (n : UInt8) : (dec n).all isDigit = true ∧ dec n ≠ [] ∧ value 10 (dec n) = n.toNat ∧
    ((dec n).head? = some 48 → (dec n).length = 1) := by
  have h : ∀ k : Fin 256, (dec (UInt8.ofNat k)).all isDigit = true ∧ dec (UInt8.ofNat k) ≠ [] ∧
      value 10 (dec (UInt8.ofNat k)) = k.val ∧ ((dec (UInt8.ofNat k)).head? = some 48 → (dec (UInt8.ofNat k)).length = 1) := by
    decide +kernel
  have := h ⟨n.toNat, n.toNat_lt⟩
  simpa using this

theorem takeWhile_app (p : UInt8 → Bool) (a : List UInt8) (b : UInt8) (t : List UInt8) (h : a.all p = true) (hb : p b = false) :
    (a ++ b :: t).takeWhile p = a ∧ (a ++ b :: t).dropWhile p = b :: t := by
  induction a with
  | nil => simp [hb]
  | cons x xs ih => simp at h; simp [h.1, ih (by simpa using h.2)]

theorem takeWhile_all (p : UInt8 → Bool) (a : List UInt8) (h : a.all p = true) :
    a.takeWhile p = a ∧ a.dropWhile p = [] := by
  induction a with
  | nil => simp
  | cons x xs ih => simp at h; simp [h.1, ih (by simpa using h.2)]

theorem part_dec (n : UInt8) (rest : List UInt8) (h : rest = [] ∨ ∃ t, rest = 46 :: t) :
    part (dec n ++ rest) = some (n.toNat, rest) := by
  obtain ⟨h1, h2, h3, h4⟩ := dec_digits n
  have ht : (dec n ++ rest).takeWhile isDigit = dec n ∧ (dec n ++ rest).dropWhile isDigit = rest := by
    rcases h with rfl | ⟨t, rfl⟩
    · simpa using takeWhile_all isDigit _ h1
    · exact takeWhile_app isDigit _ _ _ h1 (by decide)
  unfold part
  simp only [ht.1, ht.2]
  rw [← h3]
  revert h2 h4
  generalize dec n = ds
  intro h2 h4
  match ds with
  | [] => exact absurd rfl h2
  | [d] => simp
  | d :: e :: t =>
    have : d ≠ 48 := by rintro rfl; simp at h4
    simp [this]

/-- C06. The address passed to `connect` consists of exactly the four bytes given, for all addresses. -/
theorem c06_text_round_trip (a b c d : UInt8) : inetAddr (fmt a b c d) = some [a, b, c, d] := by
  unfold inetAddr fmt
  simp only [List.append_assoc, List.cons_append, List.nil_append]
  rw [part_dec a _ (.inr ⟨_, rfl⟩)]
  simp only [Option.bind_eq_bind, Option.bind_some, dotPart]
  rw [part_dec b _ (.inr ⟨_, rfl⟩)]
  simp only [Option.bind_some]
  rw [part_dec c _ (.inr ⟨_, rfl⟩)]
  simp only [Option.bind_some]
  have := part_dec d [] (.inl rfl)
  rw [List.append_nil] at this
  rw [this]
  have ha := a.toNat_lt; have hb := b.toNat_lt; have hc := c.toNat_lt; have hd := d.toNat_lt
  simp only [Option.bind_some]
  rw [if_pos ⟨trivial, ha, hb, hc, hd⟩]
  simp

/-- Case: 10.0.255.7. -/
example : fmt 10 0 255 7 = [49, 48, 46, 48, 46, 50, 53, 53, 46, 55] ∧ inetAddr [49, 48, 46, 48, 46, 50, 53, 53, 46, 55] = some [10, 0, 255, 7] := by
  decide +kernel

/-- C06: the text always fits the 128-byte buffer it is printed to. -/
theorem c06_text_fits (a b c d : UInt8) : (fmt a b c d).length < 128 := by
  have h : ∀ n : UInt8, (dec n).length ≤ 3 := by
    intro n; unfold dec; split
    · simp
    · split <;> simp
  have := h a; have := h b; have := h c; have := h d
  simp [fmt]; omega

example : fmt 192 168 0 1 = [49, 57, 50, 46, 49, 54, 56, 46, 48, 46, 49] := by decide

end Verif.Ip4

namespace Verif.S5
open Verif

/-- C05 (part). Success is reported only if the connection attempt finished and `SO_ERROR` was clear; in every other case no
byte is sent. -/
theorem c05_reply_only_when_connected_partial (rc : ConnRc) (soNow : Bool) (ev : Option UpEvent) (ip port bytes : List UInt8)
    (h : cupConnect rc soNow ev ip port = .reply bytes) :
    (rc = .ok ∧ soNow = true ∨ rc = .again ∧ ev = some (.writable true)) ∧ bytes = p2Reply ip port := by
  cases rc with
  | ok => cases soNow <;> simp_all [cupConnect, cupConnectChk]
  | again =>
    cases ev with
    | none => simp [cupConnect] at h
    | some e =>
      cases e with
      | timeout => simp [cupConnect] at h
      | writable b => cases b <;> simp_all [cupConnect, cupConnectChk]
  | fail => simp [cupConnect] at h

/-- Case: the only ways to success, and a timeout. -/
example : cupConnect .ok true none [10, 0, 0, 1] [0, 80] = .reply (p2Reply [10, 0, 0, 1] [0, 80]) ∧
    cupConnect .again true (some .timeout) [10, 0, 0, 1] [0, 80] = .closed := by decide

/-- C05. A finished connection without error is always answered, a failed one never. -/
theorem c05_reply_when_connected (ip port : List UInt8) :
    (∀ ev, cupConnect .ok true ev ip port = .reply (p2Reply ip port)) ∧
    (∀ s, cupConnect .again s (some (.writable true)) ip port = .reply (p2Reply ip port)) ∧
    (∀ s, cupConnect .again s (some (.writable false)) ip port = .closed) ∧
    (∀ s, cupConnect .again s (some .timeout) ip port = .closed) ∧
    (∀ s ev, cupConnect .fail s ev ip port = .closed) := by
  refine ⟨fun _ => rfl, fun _ => rfl, fun _ => rfl, fun _ => rfl, fun _ _ => rfl⟩

/-- C05 (part). The bytes that are actually sent for upstream `a.b.c.d:p0p1`: ten bytes with the right first four, but only two
address bytes, swapped, and the port bytes swapped. -/
theorem c05_reply_bytes_partial (a b c d p0 p1 : UInt8) :
    p2Reply [a, b, c, d] [p0, p1] = [5, 0, 0, 1, b, a, 0, 0, p1, p0] := by
  have ha := a.toNat_lt; have hb := b.toNat_lt; have h0 := p0.toNat_lt; have h1 := p1.toNat_lt
  have e1 : leVal [a, b, c, d] % 65536 = a.toNat + 256 * b.toNat := by simp [leVal]; omega
  have e2 : leVal [p0, p1] = p0.toNat + 256 * p1.toNat := by simp [leVal]
  have e3 : ∀ x y : Nat, x < 256 → y < 256 → htons (x + 256 * y) = y + 256 * x := by
    intro x y hx hy; unfold htons; omega
  unfold p2Reply
  rw [e1, e2, e3 _ _ ha hb, e3 _ _ h0 h1]
  have q : ∀ (x y : UInt8), (y.toNat + 256 * x.toNat) % 256 = y.toNat ∧ (y.toNat + 256 * x.toNat) / 256 = x.toNat := by
    intro x y; have := x.toNat_lt; have := y.toNat_lt; omega
  have r : ∀ (x : UInt8), x.toNat % 256 = x.toNat ∧ x.toNat / 256 = 0 := by
    intro x; have := x.toNat_lt; omega
  simp only [leStore, (q a b).1, (q a b).2, (q p0 p1).1, (q p0 p1).2, (r a).1, (r a).2, (r p0).1]
  simp

/-- Case: 10.0.0.1:80. -/
example : p2Reply [10, 0, 0, 1] [0, 80] = [5, 0, 0, 1, 0, 10, 0, 0, 80, 0] := c05_reply_bytes_partial 10 0 0 1 0 80

/-- C05, counterexample: the reply for 10.0.0.1 port 80 does not carry that address and port. -/
theorem c05_address_counterexample :
    p2Reply [10, 0, 0, 1] [0, 80] ≠ [5, 0, 0, 1] ++ [10, 0, 0, 1] ++ [0, 80] := by
  rw [c05_reply_bytes_partial]; decide

/-- C05 (part). The address field is right exactly for addresses `a.a.0.0` with a port of equal bytes. -/
theorem c05_reply_right_iff_partial (a b c d p0 p1 : UInt8) :
    p2Reply [a, b, c, d] [p0, p1] = [5, 0, 0, 1] ++ [a, b, c, d] ++ [p0, p1] ↔ a = b ∧ c = 0 ∧ d = 0 ∧ p0 = p1 := by
  rw [c05_reply_bytes_partial]
  simp only [List.cons_append, List.nil_append, List.cons.injEq, true_and, and_true]
  constructor
  · rintro ⟨h1, -, h3, h4, -, h6⟩; exact ⟨h1.symm, h3.symm, h4.symm, h6⟩
  · rintro ⟨rfl, rfl, rfl, rfl⟩; exact ⟨rfl, rfl, rfl, rfl, rfl, rfl⟩

/-- Case: 9.9.0.0, port 257. -/
example : p2Reply [9, 9, 0, 0] [1, 1] = [5, 0, 0, 1] ++ [9, 9, 0, 0] ++ [1, 1] := (c05_reply_right_iff_partial 9 9 0 0 1 1).mpr (by decide)

/-- C05. The reply is delivered whole and in order, whatever partial writes happen. -/
theorem c05_reply_delivery (ip port : List UInt8) (l : List Net.Tx) :
    match rspAll [] (p2Reply ip port) l with
    | .done w _ => w = p2Reply ip port
    | .again w u _ => w ++ u = p2Reply ip port ∧ u ≠ []
    | .closed w => w <+: p2Reply ip port := by
  have h := rspAll_spec [] (p2Reply ip port) l
  revert h
  generalize rspAll [] (p2Reply ip port) l = o
  cases o with
  | done w r => intro h; exact h
  | again w u r => rintro ⟨h1, h2, -⟩; exact ⟨h1, h2⟩
  | closed w => intro h; exact h

/-- Case for `c05_reply_when_connected`. -/
example : cupConnect .again false (some (.writable true)) [10, 0, 0, 1] [0, 80] = .reply [5, 0, 0, 1, 0, 10, 0, 0, 80, 0] := by
  decide

end Verif.S5
