import Verif.Spec.CJsonLax
import Verif.Proofs.CJson
/-
Lemmas about the JSON parser: every JSON text is parsed to what it denotes.
-/
namespace Verif.CJson
open Spec (utf8 Scalar Hex4 Str Ws Val commas)
open Lax (Blank)

theorem byte_all {p : UInt8 → Prop} (h : ∀ n, n < 256 → p (UInt8.ofNat n)) (b : UInt8) : p b := by
  have := h b.toNat b.toNat_lt
  rwa [UInt8.ofNat_toNat] at this

theorem hexDigit_spec (b : UInt8) : Spec.hexDigit b = hexDigit b :=
  byte_all (p := fun b => Spec.hexDigit b = hexDigit b) (by decide +kernel) b

theorem hex_plain (b : UInt8) : (Spec.hexDigit b).isSome = true → b ≠ 0x22 ∧ b ≠ 0x5C :=
  byte_all (p := fun b => (Spec.hexDigit b).isSome = true → b ≠ 0x22 ∧ b ≠ 0x5C) (by decide +kernel) b

/-! ### UTF-8 -/

theorem contByte (c : Nat) : UInt8.ofNat ((c ||| 0x80) &&& 0xBF) = UInt8.ofNat (0x80 + c % 64) := by
  have h1 : ∀ b, b < 256 → (b ||| 0x80) &&& 0xBF = 0x80 + b % 64 := by decide +kernel
  have h2 : ((c ||| 0x80) &&& 0xBF) % 2 ^ 8 = 0x80 + c % 64 := by
    rw [Nat.and_mod_two_pow, Nat.or_mod_two_pow]
    have := h1 (c % 2 ^ 8) (Nat.mod_lt _ (by decide))
    rw [show (0x80 : Nat) % 2 ^ 8 = 0x80 from rfl, show (0xBF : Nat) % 2 ^ 8 = 0xBF from rfl, this]
    omega
  apply UInt8.toNat_inj.mp
  rw [UInt8.toNat_ofNat', h2, UInt8.toNat_ofNat']
  omega

theorem leadByte (m : Nat) (n : Nat) (x : Nat) (h : ∀ y, y < n → (y ||| m) &&& 0xFF = m + y) (hx : x < n) : UInt8.ofNat ((x ||| m) &&& 0xFF) = UInt8.ofNat (m + x) := by
  rw [h x hx]

theorem toUtf8_spec {c : Nat} (h : c ≤ 0x10FFFF) : toUtf8 c = some (utf8 c) := by
  unfold toUtf8 utf8
  split
  · rename_i hc
    have : ∀ y, y < 128 → y &&& 0x7F = y := by decide +kernel
    rw [this c hc]
  · split
    · rename_i hc
      simp only [cont, contByte, Nat.shiftRight_eq_div_pow]
      rw [leadByte 0xC0 32 (c / 2 ^ 6) (by decide +kernel) (by omega)]
    · split
      · rename_i hc
        simp only [cont, contByte, Nat.shiftRight_eq_div_pow]
        rw [leadByte 0xE0 16 _ (by decide +kernel) (by omega)]
        simp [Nat.div_div_eq_div_mul]
      · simp only [cont, contByte, Nat.shiftRight_eq_div_pow]
        rw [leadByte 0xF0 8 _ (by decide +kernel) (by omega)]
        simp [Nat.div_div_eq_div_mul]

theorem pairCode {hi lo : Nat} (h1 : hi < 1024) (h2 : lo < 1024) :
    0x10000 + ((((0xD800 + hi) &&& 0x3FF) <<< 10) ||| ((0xDC00 + lo) &&& 0x3FF)) = 0x10000 + hi * 1024 + lo := by
  rw [show (0x3FF : Nat) = 2 ^ 10 - 1 from rfl, Nat.and_two_pow_sub_one_eq_mod, Nat.and_two_pow_sub_one_eq_mod]
  rw [show (0xD800 + hi) % 2 ^ 10 = hi by omega, show (0xDC00 + lo) % 2 ^ 10 = lo by omega]
  rw [← Nat.shiftLeft_add_eq_or_of_lt (by omega), Nat.shiftLeft_eq]
  omega

theorem utf8_high {c : Nat} (h : 0x80 ≤ c) (hc : c ≤ 0x10FFFF) : ∀ b ∈ utf8 c, 0x80 ≤ b.toNat := by
  have hb : ∀ x, x < 256 → 0x80 ≤ x → 0x80 ≤ (UInt8.ofNat x).toNat := by
    intro x h1 h2; rw [UInt8.toNat_ofNat']; omega
  unfold utf8
  rw [if_neg (by omega)]
  split
  · intro b hb'
    simp only [List.mem_cons, List.not_mem_nil, or_false] at hb'
    rcases hb' with rfl | rfl <;> exact hb _ (by omega) (by omega)
  · split
    · intro b hb'
      simp only [List.mem_cons, List.not_mem_nil, or_false] at hb'
      rcases hb' with rfl | rfl | rfl <;> exact hb _ (by omega) (by omega)
    · intro b hb'
      simp only [List.mem_cons, List.not_mem_nil, or_false] at hb'
      rcases hb' with rfl | rfl | rfl | rfl <;> exact hb _ (by omega) (by omega)

theorem utf8_plain {c : Nat} (hs : Scalar c) (h2 : c ≠ 0x22) (h3 : c ≠ 0x5C) : ∀ b ∈ utf8 c, b ≠ 0x22 ∧ b ≠ 0x5C := by
  have hle : c ≤ 0x10FFFF := by rcases hs with h | h <;> omega
  intro b hb
  by_cases hc : c < 0x80
  · unfold utf8 at hb
    rw [if_pos hc, List.mem_singleton] at hb
    subst hb
    constructor
    · intro e
      have := congrArg UInt8.toNat e
      rw [UInt8.toNat_ofNat', show (0x22 : UInt8).toNat = 0x22 from rfl] at this
      omega
    · intro e
      have := congrArg UInt8.toNat e
      rw [UInt8.toNat_ofNat', show (0x5C : UInt8).toNat = 0x5C from rfl] at this
      omega
  · have := utf8_high (by omega) hle b hb
    constructor
    · rintro rfl; exact absurd this (by decide)
    · rintro rfl; exact absurd this (by decide)

/-! ### Positions -/

theorem drop_cons {buf : List UInt8} {i : Nat} {b : UInt8} {t : List UInt8} (h : buf.drop i = b :: t) :
    buf[i]? = some b ∧ i < buf.length ∧ buf.drop (i + 1) = t := by
  have hi : i < buf.length := by
    rcases Nat.lt_or_ge i buf.length with h' | h'
    · exact h'
    · rw [List.drop_of_length_le h'] at h; cases h
  refine ⟨?_, hi, ?_⟩
  · have := List.getElem?_drop (xs := buf) (i := i) (j := 0)
    rw [h] at this
    simpa using this.symm
  · rw [← List.drop_drop, h]; rfl

theorem drop_append {buf : List UInt8} {i : Nat} {s t : List UInt8} (h : buf.drop i = s ++ t) : buf.drop (i + s.length) = t := by
  rw [← List.drop_drop, h, List.drop_left]

theorem rd_drop {buf : List UInt8} {i : Nat} {b : UInt8} {t : List UInt8} (h : buf.drop i = b :: t) : rd buf i = .ok b := by
  rw [rd, (drop_cons h).1]

theorem isAt_drop {buf : List UInt8} {i : Nat} {b : UInt8} {t : List UInt8} (h : buf.drop i = b :: t) (c : UInt8) : isAt buf i c = decide (b = c) := by
  rw [isAt, (drop_cons h).1]; simp

theorem ws_blank {w : List UInt8} (h : Ws w) : Blank w := by
  intro b hb
  rcases h b hb with rfl | rfl | rfl | rfl <;> decide

theorem skipRun_ws {buf : List UInt8} {i : Nat} {w : List UInt8} {b : UInt8} {t : List UInt8} (hw : Blank w) (hb : 32 < b) (h : buf.drop i = w ++ b :: t) :
    skipRun buf i = i + w.length := by
  induction w generalizing i with
  | nil =>
    obtain ⟨h1, h2, _⟩ := drop_cons h
    rw [List.getElem?_eq_getElem h2] at h1
    rw [skipRun, dif_pos h2, Option.some.inj h1, if_neg (by rw [UInt8.not_le]; exact hb)]
    rfl
  | cons a w ih =>
    obtain ⟨h1, h2, h3⟩ := drop_cons h
    rw [List.getElem?_eq_getElem h2] at h1
    have ha : a ≤ 32 := hw a (List.mem_cons_self ..)
    rw [skipRun, dif_pos h2, Option.some.inj h1, if_pos ha, ih (fun x hx => hw x (List.mem_cons_of_mem _ hx)) h3, List.length_cons]
    omega

theorem skipWs_ws {buf : List UInt8} {i : Nat} {w : List UInt8} {b : UInt8} {t : List UInt8} (hw : Blank w) (hb : 32 < b) (h : buf.drop i = w ++ b :: t) :
    skipWs buf i = i + w.length := by
  have h1 := skipRun_ws hw hb h
  have h2 := drop_cons (drop_append h)
  rw [skipWs, if_pos (by omega), h1, if_neg (by omega)]

/-! ### Strings -/

theorem S_plain {buf : List UInt8} {e i : Nat} {u rest : List UInt8} {k : Nat} (hu : ∀ b ∈ u, b ≠ 0x22 ∧ b ≠ 0x5C) (h : buf.drop i = u ++ rest)
    (hs : S buf e (i + u.length) k) : S buf e i k := by
  induction u generalizing i with
  | nil => exact hs
  | cons a u ih =>
    obtain ⟨h1, _, h3⟩ := drop_cons h
    obtain ⟨a1, a2⟩ := hu a (List.mem_cons_self ..)
    refine .plain i k a h1 a1 a2 (ih (fun b hb => hu b (List.mem_cons_of_mem _ hb)) h3 ?_)
    rw [List.length_cons] at hs
    rwa [Nat.add_assoc, Nat.add_comm 1]

theorem hex4_plain {hs : List UInt8} {c : Nat} (h : Hex4 hs c) : hs.length = 4 ∧ ∀ b ∈ hs, b ≠ 0x22 ∧ b ≠ 0x5C := by
  obtain ⟨a, b, d, e, x, y, z, w, rfl, h1, h2, h3, h4, _⟩ := h
  refine ⟨rfl, ?_⟩
  intro v hv
  simp only [List.mem_cons, List.not_mem_nil, or_false] at hv
  rcases hv with rfl | rfl | rfl | rfl
  · exact hex_plain _ (by rw [h1]; rfl)
  · exact hex_plain _ (by rw [h2]; rfl)
  · exact hex_plain _ (by rw [h3]; rfl)
  · exact hex_plain _ (by rw [h4]; rfl)

theorem S_hex {buf : List UInt8} {e i : Nat} {hs rest : List UInt8} {c k : Nat} (hh : Hex4 hs c) (h : buf.drop i = 0x5C :: 0x75 :: hs ++ rest)
    (hS : S buf e (i + 6) k) : S buf e i (k + 1) := by
  obtain ⟨h1, _, h3⟩ := drop_cons h
  obtain ⟨_, _, h5⟩ := drop_cons h3
  obtain ⟨l, p⟩ := (hex4_plain hh)
  exact .esc i k h1 (S_plain p h5 (by rw [l]; exact hS))

theorem S_unit {buf : List UInt8} {e i : Nat} {u o rest : List UInt8} {k : Nat} (hu : Spec.Unit u o) (h : buf.drop i = u ++ rest)
    (hS : S buf e (i + u.length) k) : ∃ k', S buf e i k' := by
  cases hu with
  | raw c hs h1 h2 h3 => exact ⟨k, S_plain (utf8_plain hs h2 h3) h hS⟩
  | letter b c hm => exact ⟨k + 1, .esc i k (drop_cons h).1 hS⟩
  | hex hs c hh hc =>
    refine ⟨k + 1, S_hex hh h ?_⟩
    simpa [(hex4_plain hh).1] using hS
  | pair hs ls hi lo h1 h2 b1 b2 =>
    have h' : buf.drop i = (0x5C :: 0x75 :: hs) ++ ((0x5C :: 0x75 :: ls) ++ rest) := by rw [h]; simp
    have h'' := drop_append h'
    have l1 := (hex4_plain h1).1
    have l2 := (hex4_plain h2).1
    rw [List.length_cons, List.length_cons, l1] at h''
    refine ⟨k + 1 + 1, S_hex h1 (by rw [h']) (S_hex h2 h'' ?_)⟩
    simpa [l1, l2] using hS

theorem S_str {buf : List UInt8} {body o : List UInt8} (hs : Str body o) : ∀ {i : Nat} {post : List UInt8}, buf.drop i = body ++ 0x22 :: post →
    ∃ k, S buf (i + body.length) i k := by
  induction hs with
  | nil => intro i post h; exact ⟨0, .stop (drop_cons h).1⟩
  | cons u o s t hu hs ih =>
    intro i post h
    rw [List.append_assoc] at h
    obtain ⟨k, hk⟩ := ih (drop_append h)
    rw [List.length_append, ← Nat.add_assoc]
    exact S_unit hu h hk

theorem hexv_of {hs : List UInt8} {c : Nat} (hh : Hex4 hs c) {buf : List UInt8} {i : Nat} {rest : List UInt8} (h : buf.drop i = hs ++ rest) :
    hex4 buf 4 i 0 = .ok c := by
  obtain ⟨a, b, d, e, x, y, z, w, rfl, h1, h2, h3, h4, rfl⟩ := hh
  obtain ⟨a1, _, r1⟩ := drop_cons h
  obtain ⟨a2, _, r2⟩ := drop_cons r1
  obtain ⟨a3, _, r3⟩ := drop_cons r2
  obtain ⟨a4, l4, _⟩ := drop_cons r3
  rw [hexDigit_spec] at h1 h2 h3 h4
  simp [hex4, rd, a1, a2, a3, a4, h1, h2, h3, h4, Nat.shiftLeft_eq]

/-- Either the right continuation, or the output is too small (which `decode_safe` excludes). -/
def Next (x y : R (List UInt8)) : Prop := x = y ∨ x = .error .write

theorem Next.trans {x y z : R (List UInt8)} (h1 : Next x y) (h2 : Next y z) : Next x z := by
  rcases h1 with h | h
  · rw [h]; exact h2
  · exact .inr h

theorem emit_next (cap : Nat) (out bs : List UInt8) : emit cap out bs = .ok (out ++ bs) ∨ emit cap out bs = .error .write := by
  unfold emit; split <;> simp

theorem decode_plain {buf : List UInt8} {e cap : Nat} {u rest : List UInt8} (hu : ∀ b ∈ u, b ≠ 0x22 ∧ b ≠ 0x5C) :
    ∀ {i : Nat} (out : List UInt8), buf.drop i = u ++ rest → i + u.length ≤ e →
    Next (decode buf e cap i out) (decode buf e cap (i + u.length) (out ++ u)) := by
  induction u with
  | nil => intro i out _ _; exact .inl (by simp)
  | cons a u ih =>
    intro i out h hl
    rw [List.length_cons] at hl ⊢
    have hr := rd_drop h
    have h3 := (drop_cons h).2.2
    have ha := (hu a (List.mem_cons_self ..)).2
    have := ih (fun b hb => hu b (List.mem_cons_of_mem _ hb)) (out ++ [a]) h3 (by omega)
    rw [List.append_assoc, show i + 1 + u.length = i + (u.length + 1) by omega] at this
    refine Next.trans ?_ this
    rw [decode, dif_pos (by omega), hr]
    dsimp only
    rw [if_pos ha]
    rcases emit_next cap out [a] with he | he
    · rw [he]; exact .inl rfl
    · rw [he]; exact .inr rfl

theorem decode_u {buf : List UInt8} {e cap i n : Nat} {out bs : List UInt8} {rest : List UInt8} (h : buf.drop i = 0x5C :: 0x75 :: rest) (hi : i < e)
    (hu : utf16 buf i e = .ok (n, bs)) (hn : n ≠ 0) : Next (decode buf e cap i out) (decode buf e cap (i + n) (out ++ bs)) := by
  have h3 := (drop_cons h).2.2
  rw [decode, dif_pos hi, rd_drop h]
  dsimp only
  rw [if_neg (by decide), rd_drop h3]
  dsimp only
  rw [if_pos rfl, hu]
  dsimp only
  rcases emit_next cap out bs with he | he
  · rw [he]; dsimp only; rw [if_neg hn]; exact .inl rfl
  · rw [he]; exact .inr rfl

theorem decode_unit {buf : List UInt8} {e cap i : Nat} {u o rest : List UInt8} (hu : Spec.Unit u o) (out : List UInt8) (h : buf.drop i = u ++ rest)
    (hl : i + u.length ≤ e) : Next (decode buf e cap i out) (decode buf e cap (i + u.length) (out ++ o)) := by
  cases hu with
  | raw c hs h1 h2 h3 => exact decode_plain (utf8_plain hs h2 h3) out h hl
  | letter b c hm =>
    rw [show ([0x5C, b] : List UInt8).length = 2 from rfl] at hl ⊢
    have h3 := (drop_cons h).2.2
    have hb : b ≠ 0x75 ∧ escape b = some c := by
      have : ∀ x ∈ Spec.letters, x.1 ≠ 0x75 ∧ escape x.1 = some x.2 := by decide
      exact this _ hm
    rw [decode, dif_pos (by omega), rd_drop h]
    dsimp only
    rw [if_neg (by decide), rd_drop h3]
    dsimp only
    rw [if_neg hb.1, hb.2]
    dsimp only
    rcases emit_next cap out [c] with he | he
    · rw [he]; exact .inl rfl
    · rw [he]; exact .inr rfl
  | hex hs c hh hc =>
    have hl4 := (hex4_plain hh).1
    rw [List.length_cons, List.length_cons, hl4] at hl ⊢
    have hx : utf16 buf i e = .ok (6, utf8 c) := by
      have h5 := (drop_cons (drop_cons h).2.2).2.2
      have hle : c ≤ 0x10FFFF := by rcases hc with h | h <;> omega
      rw [utf16, if_neg (by omega), hexv_of hh h5]
      dsimp only
      rw [if_neg (by rcases hc with h | h <;> omega), if_neg (by rcases hc with h | h <;> omega), toUtf8_spec hle]
    exact decode_u h (by omega) hx (by decide)
  | pair hs ls hi lo h1 h2 b1 b2 =>
    have l1 := (hex4_plain h1).1
    have l2 := (hex4_plain h2).1
    have hlen : (0x5C :: 0x75 :: hs ++ 0x5C :: 0x75 :: ls : List UInt8).length = 12 := by simp [l1, l2]
    rw [hlen] at hl ⊢
    have h' : buf.drop i = (0x5C :: 0x75 :: hs) ++ (0x5C :: 0x75 :: (ls ++ rest)) := by rw [h]; simp
    have h'' := drop_append h'
    rw [List.length_cons, List.length_cons, l1] at h''
    have hx : utf16 buf i e = .ok (12, utf8 (0x10000 + hi * 1024 + lo)) := by
      have h5 := (drop_cons (drop_cons h').2.2).2.2
      have h6 := (drop_cons h'').2.2
      have h7 := (drop_cons h6).2.2
      rw [utf16, if_neg (by omega), hexv_of h1 h5]
      dsimp only
      rw [if_neg (by omega), if_pos (by omega), if_neg (by omega), rd_drop h'', rd_drop h6]
      dsimp only
      rw [if_neg (by decide), hexv_of h2 h7]
      dsimp only
      rw [if_neg (by omega), pairCode b1 b2, toUtf8_spec (by omega)]
    exact decode_u h' (by omega) hx (by decide)

theorem decode_str {buf : List UInt8} {e cap : Nat} {body o : List UInt8} (hs : Str body o) : ∀ {i : Nat} {post : List UInt8} (out : List UInt8),
    buf.drop i = body ++ 0x22 :: post → i + body.length = e → Next (decode buf e cap i out) (.ok (out ++ o)) := by
  induction hs with
  | nil =>
    intro i post out h he
    rw [decode, dif_neg (by simp at he; omega)]
    exact .inl (by simp)
  | cons u o s t hu hs ih =>
    intro i post out h he
    rw [List.length_append] at he
    rw [List.append_assoc] at h
    refine Next.trans (decode_unit hu out h (by omega)) ?_
    rw [← List.append_assoc]
    exact ih (out ++ o) (drop_append h) (by omega)

/-- A string literal is parsed to what it denotes. -/
theorem parseString_str {buf : List UInt8} {i : Nat} {body o post : List UInt8} (hs : Str body o) (h : buf.drop i = 0x22 :: body ++ 0x22 :: post) :
    parseString buf i = .ok (o, i + body.length + 2) := by
  obtain ⟨_, hlt, h1⟩ := drop_cons h
  obtain ⟨k, hk⟩ := S_str hs h1
  have hsc := scan_of_S hk 0
  have hsafe := (parseString_safe hlt).1
  revert hsafe
  unfold parseString
  rw [rd_drop h]
  dsimp only
  rw [if_neg (by decide), hsc]
  dsimp only
  intro hsafe
  rcases decode_str (cap := i + 1 + body.length - i - (0 + k) + 1) hs [] h1 rfl with hd | hd
  · rw [hd] at hsafe ⊢
    dsimp only at hsafe ⊢
    rcases emit_next (i + 1 + body.length - i - (0 + k) + 1) ([] ++ o) [0] with he | he
    · rw [he]
      dsimp only
      rw [List.nil_append, show i + 1 + body.length + 1 = i + body.length + 2 by omega]
    · rw [he] at hsafe
      exact absurd (hsafe _ rfl) (by decide)
  · rw [hd] at hsafe
    exact absurd (hsafe _ rfl) (by decide)

/-- `b` between quotes is parsed as the string `o`, wherever it is in the buffer. -/
def StrAt (buf b o : List UInt8) : Prop := ∀ i post, buf.drop i = 0x22 :: b ++ 0x22 :: post → parseString buf i = .ok (o, i + b.length + 2)

/-! ### Values -/

/-- What follows a value does not continue a number. -/
def Stop (post : List UInt8) : Prop := ∀ b t, post = b :: t → numChar b = false

/-- `val` parses the text `s` as `j`, wherever it is in the buffer. -/
def Parses {V : Type} (val : Nat → R (J V × Nat)) (buf : List UInt8) (s : List UInt8) (j : J V) : Prop :=
  ∀ i post, buf.drop i = s ++ post → Stop post → val i = .ok (j, i + s.length)

theorem stop_ws {w post : List UInt8} (hw : Blank w) (hp : Stop post) : Stop (w ++ post) := by
  cases w with
  | nil => exact hp
  | cons a w =>
    intro b t h
    cases h
    exact byte_all (p := fun b => b ≤ 0x20 → numChar b = false) (by decide +kernel) a (hw a (List.mem_cons_self ..))

theorem stop_cons {b : UInt8} (h : numChar b = false) (t : List UInt8) : Stop (b :: t) := by
  intro c u e; cases e; exact h

/-- The first byte of a text is not white space and closes nothing. -/
def Head (s : List UInt8) : Prop := ∃ b t, s = b :: t ∧ 32 < b ∧ b ≠ 0x5D ∧ b ≠ 0x7D

theorem commas_cons (x : List UInt8) (xs : List (List UInt8)) (h : xs ≠ []) : commas (x :: xs) = x ++ 0x2C :: commas xs := by
  cases xs with
  | nil => exact absurd rfl h
  | cons y ys => rfl

/-- Spelling of an element of an array, with the white space around it. -/
def itemText {V : Type} (x : List UInt8 × List UInt8 × List UInt8 × J V) : List UInt8 := x.1 ++ x.2.1 ++ x.2.2.1

theorem elems_items {V : Type} {val : Nat → R (J V × Nat)} {buf : List UInt8} :
    ∀ (items : List (List UInt8 × List UInt8 × List UInt8 × J V)), items ≠ [] →
    (∀ x ∈ items, Blank x.1 ∧ Parses val buf x.2.1 x.2.2.2 ∧ Head x.2.1 ∧ Blank x.2.2.1) →
    ∀ fuel i acc post, (commas (items.map itemText)).length < fuel →
    buf.drop (i + 1) = commas (items.map itemText) ++ 0x5D :: post →
    elems val buf fuel i acc = .ok (acc ++ items.map (fun x => x.2.2.2), i + 1 + (commas (items.map itemText)).length) := by
  intro items
  induction items with
  | nil => intro h; exact absurd rfl h
  | cons x xs ih =>
    intro _ hx fuel i acc post hf hb
    obtain ⟨w, s, w', j⟩ := x
    obtain ⟨h1, h2, ⟨c, t, rfl, hc, _, _⟩, h4⟩ := hx _ (List.mem_cons_self ..)
    dsimp only at h1 h2 h4
    cases fuel with
    | zero => omega
    | succ fuel =>
      by_cases hxs : xs = []
      · subst hxs
        simp only [List.map_cons, List.map_nil, commas] at hb ⊢
        have hb1 : buf.drop (i + 1) = w ++ c :: (t ++ (w' ++ 0x5D :: post)) := by rw [hb]; simp [itemText]
        have hb2 : buf.drop (i + 1 + w.length) = (c :: t) ++ (w' ++ 0x5D :: post) := drop_append hb1
        have hb3 := drop_append hb2
        have hv := h2 _ _ hb2 (stop_ws h4 (stop_cons (by decide) _))
        have hk := skipWs_ws h4 (by decide) hb3
        have hb4 := drop_append hb3
        rw [elems, skipWs_ws h1 hc hb1, hv]
        dsimp only
        rw [hk, isAt_drop hb4, isAt_drop hb4, if_neg (by decide), if_pos (by decide)]
        simp only [itemText, List.length_append]
        congr 2
        omega
      · have hxs' : (xs.map itemText) ≠ [] := by simpa using hxs
        simp only [List.map_cons, commas_cons _ _ hxs'] at hb hf ⊢
        have hb1 : buf.drop (i + 1) = w ++ c :: (t ++ (w' ++ 0x2C :: (commas (xs.map itemText) ++ 0x5D :: post))) := by
          rw [hb]; simp [itemText]
        have hb2 : buf.drop (i + 1 + w.length) = (c :: t) ++ (w' ++ 0x2C :: (commas (xs.map itemText) ++ 0x5D :: post)) :=
          drop_append hb1
        have hb3 := drop_append hb2
        have hv := h2 _ _ hb2 (stop_ws h4 (stop_cons (by decide) _))
        have hk := skipWs_ws h4 (by decide) hb3
        have hb4 := drop_append hb3
        have hb5 := (drop_cons hb4).2.2
        rw [elems, skipWs_ws h1 hc hb1, hv]
        dsimp only
        rw [hk, isAt_drop hb4, if_pos (by decide)]
        rw [ih hxs (fun y hy => hx y (List.mem_cons_of_mem _ hy)) fuel _ _ post (by simp only [List.length_append, List.length_cons] at hf; omega) hb5]
        simp only [itemText, List.length_append, List.length_cons, List.append_assoc, List.singleton_append]
        congr 2
        omega

theorem array_items {V : Type} {val : Nat → R (J V × Nat)} {buf : List UInt8}
    (items : List (List UInt8 × List UInt8 × List UInt8 × J V)) (hne : items ≠ [])
    (hx : ∀ x ∈ items, Blank x.1 ∧ Parses val buf x.2.1 x.2.2.2 ∧ Head x.2.1 ∧ Blank x.2.2.1) (i : Nat) (post : List UInt8)
    (hb : buf.drop i = 0x5B :: commas (items.map itemText) ++ 0x5D :: post) :
    array val buf i = .ok (.arr (items.map fun x => x.2.2.2), i + (0x5B :: commas (items.map itemText) ++ [0x5D]).length) := by
  cases items with
  | nil => exact absurd rfl hne
  | cons x xs =>
    obtain ⟨w, s, w', j⟩ := x
    have hx0 := hx _ (List.mem_cons_self ..)
    obtain ⟨h1, h2, ⟨c, t, rfl, hc, hc1, hc2⟩, h4⟩ := hx0
    dsimp only at h1 h2 h4
    have hcom : ∀ v, commas (((v, c :: t, w', j) :: xs).map itemText) =
        v ++ commas ((([], c :: t, w', j) :: xs).map itemText) := by
      intro v
      cases xs with
      | nil => simp [commas, itemText]
      | cons y ys => simp [commas, itemText]
    have hh : ∃ r, commas ((([], c :: t, w', j) :: xs).map itemText) = c :: r := by
      cases xs with
      | nil => exact ⟨_, by simp [commas, itemText]; rfl⟩
      | cons y ys => exact ⟨_, by simp [commas, itemText]; rfl⟩
    rw [hcom w] at hb ⊢
    have hb0 := (drop_cons hb).2.2
    generalize hC : commas ((([], c :: t, w', j) :: xs).map itemText) = C at *
    obtain ⟨r, rfl⟩ := hh
    have hb1 : buf.drop (i + 1) = w ++ c :: (r ++ 0x5D :: post) := by rw [hb0]; simp
    have hb2 := drop_append hb1
    have hlt := (drop_cons hb2).2.1
    have hlen : buf.length - (i + 1 + w.length) = (c :: (r ++ 0x5D :: post)).length := by rw [← hb2, List.length_drop]
    simp only [List.length_cons, List.length_append] at hlen
    unfold array
    dsimp only
    rw [skipWs_ws h1 hc hb1, isAt_drop hb2, if_neg (by simpa using hc1), if_neg (by omega)]
    rw [elems_items (([], c :: t, w', j) :: xs) (by simp) ?_ _ _ _ post ?_ ?_]
    · dsimp only
      rw [hC]
      simp only [List.length_append, List.length_cons, List.length_nil, List.map_cons, List.nil_append]
      congr 2
      omega
    · intro y hy
      rcases List.mem_cons.mp hy with rfl | hy
      · exact ⟨fun b hb => (by cases hb), h2, ⟨c, t, rfl, hc, hc1, hc2⟩, h4⟩
      · exact hx y (List.mem_cons_of_mem _ hy)
    · rw [hC]; simp only [List.length_cons]; omega
    · rw [hC, show i + 1 + w.length - 1 + 1 = i + 1 + w.length by omega, hb2]; rfl

/-- Spelling of a member of an object. -/
def memText {V : Type} (x : (List UInt8 × List UInt8 × List UInt8 × List UInt8) × List UInt8 × List UInt8 × List UInt8 × J V) : List UInt8 :=
  x.1.1 ++ 0x22 :: x.1.2.1 ++ 0x22 :: x.1.2.2.2 ++ 0x3A :: x.2.1 ++ x.2.2.1 ++ x.2.2.2.1

theorem member_step {V : Type} {val : Nat → R (J V × Nat)} {buf : List UInt8}
    (x : (List UInt8 × List UInt8 × List UInt8 × List UInt8) × List UInt8 × List UInt8 × List UInt8 × J V)
    (hx : Blank x.1.1 ∧ StrAt buf x.1.2.1 x.1.2.2.1 ∧ Blank x.1.2.2.2 ∧ Blank x.2.1 ∧ Parses val buf x.2.2.1 x.2.2.2.2 ∧ Head x.2.2.1 ∧ Blank x.2.2.2.1)
    (fuel i : Nat) (acc : List (List UInt8 × J V)) (b : UInt8) (post : List UInt8) (hb : buf.drop (i + 1) = memText x ++ b :: post) (h32 : 32 < b)
    (hn : numChar b = false) :
    members val buf (fuel + 1) i acc =
      if b = 0x2C then members val buf fuel (i + 1 + (memText x).length) (acc ++ [(x.1.2.2.1, x.2.2.2.2)])
      else if b = 0x7D then .ok (acc ++ [(x.1.2.2.1, x.2.2.2.2)], i + 1 + (memText x).length)
      else .error .reject := by
  obtain ⟨⟨w1, n, o, w2⟩, w3, s, w4, j⟩ := x
  obtain ⟨h1, h2, h3, h4, h5, ⟨c, t, rfl, hc, _, _⟩, h7⟩ := hx
  dsimp only at h1 h2 h3 h4 h5 h7 ⊢
  have b1 : buf.drop (i + 1) = w1 ++ 0x22 :: (n ++ 0x22 :: (w2 ++ 0x3A :: (w3 ++ c :: (t ++ (w4 ++ b :: post))))) := by rw [hb]; simp [memText]
  have b2 := drop_append b1
  have hs := h2 _ _ b2
  have b3 : buf.drop (i + 1 + w1.length + n.length + 2) = w2 ++ 0x3A :: (w3 ++ c :: (t ++ (w4 ++ b :: post))) := by
    have : buf.drop (i + 1 + w1.length) = (0x22 :: n ++ [0x22]) ++ (w2 ++ 0x3A :: (w3 ++ c :: (t ++ (w4 ++ b :: post)))) := by rw [b2]; simp
    have := drop_append this
    rw [show (0x22 :: n ++ [0x22] : List UInt8).length = n.length + 2 by simp] at this
    rw [Nat.add_assoc _ n.length]; exact this
  have b4 := drop_append b3
  have b5 := (drop_cons b4).2.2
  have b6 : buf.drop _ = (c :: t) ++ (w4 ++ b :: post) := drop_append b5
  have hv := h5 _ _ b6 (stop_ws h7 (stop_cons hn _))
  have b7 := drop_append b6
  have b8 := drop_append b7
  rw [members, skipWs_ws h1 (by decide) b1, hs]
  dsimp only
  rw [skipWs_ws h3 (by decide) b3, isAt_drop b4, if_pos (by decide), skipWs_ws h4 hc b5, hv]
  dsimp only
  rw [skipWs_ws h7 h32 b7, isAt_drop b8, isAt_drop b8]
  have hl : i + 1 + w1.length + n.length + 2 + w2.length + 1 + w3.length + (c :: t).length + w4.length =
      i + 1 + (memText ((w1, n, o, w2), w3, c :: t, w4, j)).length := by simp [memText]; omega
  rw [hl]
  simp only [decide_eq_true_eq]

theorem members_items {V : Type} {val : Nat → R (J V × Nat)} {buf : List UInt8} :
    ∀ (items : List ((List UInt8 × List UInt8 × List UInt8 × List UInt8) × List UInt8 × List UInt8 × List UInt8 × J V)), items ≠ [] →
    (∀ x ∈ items, Blank x.1.1 ∧ StrAt buf x.1.2.1 x.1.2.2.1 ∧ Blank x.1.2.2.2 ∧ Blank x.2.1 ∧ Parses val buf x.2.2.1 x.2.2.2.2 ∧ Head x.2.2.1 ∧ Blank x.2.2.2.1) →
    ∀ fuel i acc post, (commas (items.map memText)).length < fuel →
    buf.drop (i + 1) = commas (items.map memText) ++ 0x7D :: post →
    members val buf fuel i acc = .ok (acc ++ items.map (fun x => (x.1.2.2.1, x.2.2.2.2)), i + 1 + (commas (items.map memText)).length) := by
  intro items
  induction items with
  | nil => intro h; exact absurd rfl h
  | cons x xs ih =>
    intro _ hx fuel i acc post hf hb
    have hx0 := hx _ (List.mem_cons_self ..)
    cases fuel with
    | zero => omega
    | succ fuel =>
      by_cases hxs : xs = []
      · subst hxs
        simp only [List.map_cons, List.map_nil, commas] at hb ⊢
        rw [member_step x hx0 fuel i acc 0x7D post hb (by decide) (by decide), if_neg (by decide), if_pos rfl]
      · have hxs' : (xs.map memText) ≠ [] := by simpa using hxs
        simp only [List.map_cons, commas_cons _ _ hxs'] at hb hf ⊢
        have hb1 : buf.drop (i + 1) = memText x ++ 0x2C :: (commas (xs.map memText) ++ 0x7D :: post) := by rw [hb]; simp
        have hb2 := (drop_cons (drop_append hb1)).2.2
        rw [member_step x hx0 fuel i acc 0x2C _ hb1 (by decide) (by decide), if_pos rfl,
          ih hxs (fun y hy => hx y (List.mem_cons_of_mem _ hy)) fuel _ _ post (by simp only [List.length_append, List.length_cons] at hf; omega) hb2]
        simp only [List.length_append, List.length_cons, List.append_assoc, List.singleton_append]
        congr 2
        omega

theorem object_items {V : Type} {val : Nat → R (J V × Nat)} {buf : List UInt8}
    (items : List ((List UInt8 × List UInt8 × List UInt8 × List UInt8) × List UInt8 × List UInt8 × List UInt8 × J V)) (hne : items ≠ [])
    (hx : ∀ x ∈ items, Blank x.1.1 ∧ StrAt buf x.1.2.1 x.1.2.2.1 ∧ Blank x.1.2.2.2 ∧ Blank x.2.1 ∧ Parses val buf x.2.2.1 x.2.2.2.2 ∧ Head x.2.2.1 ∧ Blank x.2.2.2.1)
    (i : Nat) (post : List UInt8) (hb : buf.drop i = 0x7B :: commas (items.map memText) ++ 0x7D :: post) :
    object val buf i = .ok (.obj (items.map fun x => (x.1.2.2.1, x.2.2.2.2)), i + (0x7B :: commas (items.map memText) ++ [0x7D]).length) := by
  cases items with
  | nil => exact absurd rfl hne
  | cons x xs =>
    obtain ⟨⟨w, n, o, w2⟩, y⟩ := x
    have hx0 := hx _ (List.mem_cons_self ..)
    obtain ⟨h1, hrest⟩ := hx0
    dsimp only at h1
    have hcom : ∀ v, commas ((((v, n, o, w2), y) :: xs).map memText) = v ++ commas (((([], n, o, w2), y) :: xs).map memText) := by
      intro v
      cases xs with
      | nil => simp [commas, memText]
      | cons y ys => simp [commas, memText]
    have hh : ∃ r, commas (((([], n, o, w2), y) :: xs).map memText) = 0x22 :: r := by
      cases xs with
      | nil => exact ⟨_, by simp [commas, memText]; rfl⟩
      | cons y ys => exact ⟨_, by simp [commas, memText]; rfl⟩
    rw [hcom w] at hb ⊢
    have hb0 := (drop_cons hb).2.2
    generalize hC : commas (((([], n, o, w2), y) :: xs).map memText) = C at *
    obtain ⟨r, rfl⟩ := hh
    have hb1 : buf.drop (i + 1) = w ++ 0x22 :: (r ++ 0x7D :: post) := by rw [hb0]; simp
    have hb2 := drop_append hb1
    have hlt := (drop_cons hb2).2.1
    have hlen : buf.length - (i + 1 + w.length) = (0x22 :: (r ++ 0x7D :: post)).length := by rw [← hb2, List.length_drop]
    simp only [List.length_cons, List.length_append] at hlen
    unfold object
    dsimp only
    rw [skipWs_ws h1 (by decide) hb1, isAt_drop hb2, if_neg (by decide), if_neg (by omega)]
    rw [members_items ((([], n, o, w2), y) :: xs) (by simp) ?_ _ _ _ post ?_ ?_]
    · dsimp only
      rw [hC]
      simp only [List.length_append, List.length_cons, List.length_nil, List.map_cons, List.nil_append]
      congr 2
      omega
    · intro z hz
      rcases List.mem_cons.mp hz with rfl | hz
      · exact ⟨fun b hb => (by cases hb), hrest⟩
      · exact hx z (List.mem_cons_of_mem _ hz)
    · rw [hC]; simp only [List.length_cons]; omega
    · rw [hC, show i + 1 + w.length - 1 + 1 = i + 1 + w.length by omega, hb2]; rfl

/-! ### Numbers -/

theorem digit_facts (b : UInt8) : b ∈ "0123456789".toUTF8.toList → numChar b = true ∧ 0x30 ≤ b ∧ b ≤ 0x39 :=
  byte_all (p := fun b => b ∈ "0123456789".toUTF8.toList → numChar b = true ∧ 0x30 ≤ b ∧ b ≤ 0x39) (by decide +kernel) b

theorem number_chars {s : List UInt8} (h : Spec.Number s) : (∀ b ∈ s, numChar b = true) ∧ ∃ b t, s = b :: t ∧ (b = 0x2D ∨ (0x30 ≤ b ∧ b ≤ 0x39)) := by
  obtain ⟨sg, int, fr, ex, rfl, h1, ⟨hi0, hi⟩, _, h3, h4⟩ := h
  constructor
  · intro b hb
    rcases List.mem_append.mp hb with hb | hb
    · rcases List.mem_append.mp hb with hb | hb
      · rcases List.mem_append.mp hb with hb | hb
        · rcases h1 with rfl | rfl
          · cases hb
          · rw [List.mem_singleton.mp hb]; decide
        · exact (digit_facts b (hi b hb)).1
      · rcases h3 with rfl | ⟨d, hd, rfl⟩
        · cases hb
        · rcases List.mem_cons.mp hb with rfl | hb
          · decide
          · exact (digit_facts b (hd.2 b hb)).1
    · rcases h4 with rfl | ⟨e, g, d, he, hg, hd, rfl⟩
      · cases hb
      · rcases List.mem_append.mp hb with hb | hb
        · rcases List.mem_cons.mp hb with rfl | hb
          · rcases he with rfl | rfl <;> decide
          · rcases hg with rfl | rfl | rfl
            · cases hb
            · rw [List.mem_singleton.mp hb]; decide
            · rw [List.mem_singleton.mp hb]; decide
        · exact (digit_facts b (hd.2 b hb)).1
  · cases int with
    | nil => exact absurd rfl hi0
    | cons a int =>
      rcases h1 with rfl | rfl
      · exact ⟨a, _, rfl, .inr (digit_facts a (hi a (List.mem_cons_self ..))).2⟩
      · exact ⟨0x2D, _, rfl, .inl rfl⟩

theorem takeWhile_stop (s post : List UInt8) (h : ∀ b ∈ s, numChar b = true) (hp : Stop post) (n : Nat) (hn : s.length ≤ n) :
    ((s ++ post).take n).takeWhile numChar = s := by
  induction s generalizing n with
  | nil =>
    cases post with
    | nil => simp
    | cons b t =>
      cases n with
      | zero => rfl
      | succ n => simp [hp b t rfl]
  | cons a s ih =>
    cases n with
    | zero => simp at hn
    | succ n =>
      rw [List.cons_append, List.take_succ_cons, List.takeWhile_cons, h a (List.mem_cons_self ..)]
      rw [if_pos rfl]
      congr 1
      exact ih (fun b hb => h b (List.mem_cons_of_mem _ hb)) n (by simpa using hn)

theorem parseNumber_token {V : Type} {strtod : List UInt8 → Nat × V} {den : List UInt8 → V} {buf s post : List UInt8} {i : Nat} (hs : Spec.Number s)
    (hl : s.length ≤ 63) (hd : strtod s = (s.length, den s)) (hb : buf.drop i = s ++ post) (hp : Stop post) :
    parseNumber strtod buf i = .ok (.num (den s), i + s.length) := by
  obtain ⟨h1, b, t, rfl, _⟩ := number_chars hs
  unfold parseNumber
  dsimp only
  rw [hb, takeWhile_stop _ _ h1 hp 63 hl, hd]
  dsimp only
  rw [if_neg (by simp)]

/-! ### The parser -/

theorem word_ne {buf : List UInt8} {i : Nat} {b : UInt8} {t : List UInt8} (h : buf.drop i = b :: t) (a : UInt8) (w : List UInt8) (hab : b ≠ a) :
    word buf i (a :: w) = false := by
  rw [word, h, List.length_cons, List.take_succ_cons]
  simp [hab]

theorem word_eq {buf : List UInt8} {i : Nat} {w post : List UInt8} (h : buf.drop i = w ++ post) : word buf i w = true := by
  rw [word, h]; simp

/-- The texts of numbers that the parser copies whole, with their meaning. -/
def Num {V : Type} (den : List UInt8 → V) (s : List UInt8) (v : V) : Prop := Spec.Number s ∧ s.length ≤ 63 ∧ v = den s

theorem byte_lt {a b : Nat} (h : a < b) (ha : a < 256) (hb : b < 256) : UInt8.ofNat a < UInt8.ofNat b := by
  rw [UInt8.lt_iff_toNat_lt, UInt8.toNat_ofNat', UInt8.toNat_ofNat']; omega

theorem val_head {V : Type} {den : List UInt8 → V} {n : Nat} {s : List UInt8} {j : J V} (h : Val (Num den) n s j) : Head s := by
  unfold Val at h
  rcases h with ⟨rfl, _⟩ | ⟨rfl, _⟩ | ⟨rfl, _⟩ | ⟨v, ⟨hn, _⟩, _⟩ | ⟨b, o, _, rfl, _⟩ | h
  · exact ⟨_, _, rfl, by decide⟩
  · exact ⟨_, _, rfl, by decide⟩
  · exact ⟨_, _, rfl, by decide⟩
  · obtain ⟨_, b, t, rfl, hb⟩ := number_chars hn
    refine ⟨b, t, rfl, ?_⟩
    have := byte_all (p := fun b => (b = 0x2D ∨ (0x30 ≤ b ∧ b ≤ 0x39)) → 32 < b ∧ b ≠ 0x5D ∧ b ≠ 0x7D) (by decide +kernel) b
    exact this hb
  · exact ⟨_, _, rfl, by decide⟩
  · cases n with
    | zero => exact h.elim
    | succ n =>
      rcases h with ⟨w, _, rfl, _⟩ | ⟨w, _, rfl, _⟩ | ⟨it, _, _, rfl, _⟩ | ⟨it, _, _, rfl, _⟩ <;> exact ⟨_, _, rfl, by decide⟩

theorem value_leaf {V : Type} {strtod : List UInt8 → Nat × V} {den : List UInt8 → V} {buf : List UInt8}
    (hd : ∀ s, Spec.Number s → strtod s = (s.length, den s)) (n : Nat) (s : List UInt8) (j : J V) (h :
    (s = [0x6E, 0x75, 0x6C, 0x6C] ∧ j = .null) ∨
    (s = [0x66, 0x61, 0x6C, 0x73, 0x65] ∧ j = .bool false) ∨
    (s = [0x74, 0x72, 0x75, 0x65] ∧ j = .bool true) ∨
    (∃ v, Num den s v ∧ j = .num v) ∨
    (∃ b o, Str b o ∧ s = 0x22 :: b ++ [0x22] ∧ j = .str o)) : Parses (value strtod buf n) buf s j := by
  intro i post hb hp
  rw [value_eq]
  rcases h with ⟨rfl, rfl⟩ | ⟨rfl, rfl⟩ | ⟨rfl, rfl⟩ | ⟨v, ⟨hn, hl, rfl⟩, rfl⟩ | ⟨b, o, hs, rfl, rfl⟩
  · rw [if_pos (word_eq hb)]; rfl
  · rw [word_ne hb _ _ (by decide), if_neg (by decide), if_pos (word_eq hb)]; rfl
  · rw [word_ne hb _ _ (by decide), word_ne hb _ _ (by decide), if_neg (by decide), if_neg (by decide), if_pos (word_eq hb)]; rfl
  · obtain ⟨_, b, t, rfl, hbb⟩ := number_chars hn
    have hne := byte_all (p := fun b => (b = 0x2D ∨ (0x30 ≤ b ∧ b ≤ 0x39)) → b ≠ 0x6E ∧ b ≠ 0x66 ∧ b ≠ 0x74 ∧ b ≠ 0x22) (by decide +kernel) b hbb
    rw [word_ne hb _ _ hne.1, word_ne hb _ _ hne.2.1, word_ne hb _ _ hne.2.2.1, (drop_cons hb).1]
    dsimp only
    rw [if_neg (by decide), if_neg (by decide), if_neg (by decide), if_neg hne.2.2.2, if_pos hbb, parseNumber_token hn hl (hd _ hn) hb hp]
  · have hb' : buf.drop i = 0x22 :: b ++ 0x22 :: post := by rw [hb]; simp
    rw [word_ne hb _ _ (by decide), word_ne hb _ _ (by decide), word_ne hb _ _ (by decide), (drop_cons hb).1]
    dsimp only
    rw [if_neg (by decide), if_neg (by decide), if_neg (by decide), if_pos rfl, parseString_str hs hb']
    simp only [List.length_append, List.length_cons, List.length_nil]
    congr 2

theorem value_open {V : Type} {strtod : List UInt8 → Nat × V} {buf : List UInt8} {n i : Nat} {b : UInt8} {t : List UInt8} (hb : buf.drop i = b :: t)
    (h : b = 0x5B ∨ b = 0x7B) : value strtod buf n i = nested strtod buf n i b := by
  rw [value_eq]
  rcases h with rfl | rfl <;>
  · rw [word_ne hb _ _ (by decide), word_ne hb _ _ (by decide), word_ne hb _ _ (by decide), (drop_cons hb).1]
    dsimp only
    rw [if_neg (by decide), if_neg (by decide), if_neg (by decide), if_neg (by decide), if_neg (by decide)]

theorem value_of_val {V : Type} {strtod : List UInt8 → Nat × V} {den : List UInt8 → V} {buf : List UInt8}
    (hd : ∀ s, Spec.Number s → strtod s = (s.length, den s)) (n : Nat) :
    ∀ s j, Val (Num den) n s j → Parses (value strtod buf n) buf s j := by
  induction n with
  | zero =>
    intro s j h
    unfold Val at h
    rcases h with h | h | h | h | h | h
    · exact value_leaf hd 0 s j (.inl h)
    · exact value_leaf hd 0 s j (.inr (.inl h))
    · exact value_leaf hd 0 s j (.inr (.inr (.inl h)))
    · exact value_leaf hd 0 s j (.inr (.inr (.inr (.inl h))))
    · exact value_leaf hd 0 s j (.inr (.inr (.inr (.inr h))))
    · exact h.elim
  | succ n ih =>
    intro s j h
    unfold Val at h
    rcases h with h | h | h | h | h | h
    · exact value_leaf hd _ s j (.inl h)
    · exact value_leaf hd _ s j (.inr (.inl h))
    · exact value_leaf hd _ s j (.inr (.inr (.inl h)))
    · exact value_leaf hd _ s j (.inr (.inr (.inr (.inl h))))
    · exact value_leaf hd _ s j (.inr (.inr (.inr (.inr h))))
    · dsimp only at h
      intro i post hb hp
      rcases h with ⟨w, hw, rfl, rfl⟩ | ⟨w, hw, rfl, rfl⟩ | ⟨it, hne, hit, rfl, rfl⟩ | ⟨it, hne, hit, rfl, rfl⟩
      · rw [value_open hb (.inl rfl), nested, if_pos rfl]
        have hb1 : buf.drop (i + 1) = w ++ 0x5D :: post := by rw [(drop_cons hb).2.2]; simp
        unfold array
        dsimp only
        rw [skipWs_ws (ws_blank hw) (by decide) hb1, isAt_drop (drop_append hb1), if_pos (by decide)]
        simp only [List.length_append, List.length_cons, List.length_nil]
        congr 2
        omega
      · rw [value_open hb (.inr rfl), nested, if_neg (by decide), if_pos rfl]
        have hb1 : buf.drop (i + 1) = w ++ 0x7D :: post := by rw [(drop_cons hb).2.2]; simp
        unfold object
        dsimp only
        rw [skipWs_ws (ws_blank hw) (by decide) hb1, isAt_drop (drop_append hb1), if_pos (by decide)]
        simp only [List.length_append, List.length_cons, List.length_nil]
        congr 2
        omega
      · rw [value_open hb (.inl rfl), nested, if_pos rfl]
        exact array_items it hne (fun x hx => ⟨ws_blank (hit x hx).1, ih _ _ (hit x hx).2.1, val_head (hit x hx).2.1, ws_blank (hit x hx).2.2⟩) i post
          (by rw [hb, List.append_assoc]; rfl)
      · rw [value_open hb (.inr rfl), nested, if_neg (by decide), if_pos rfl]
        exact object_items it hne (fun x hx => ⟨ws_blank (hit x hx).1, fun _ _ => parseString_str (hit x hx).2.1, ws_blank (hit x hx).2.2.1, ws_blank (hit x hx).2.2.2.1, ih _ _ (hit x hx).2.2.2.2.1,
          val_head (hit x hx).2.2.2.2.1, ws_blank (hit x hx).2.2.2.2.2⟩) i post (by rw [hb, List.append_assoc]; rfl)

end Verif.CJson
