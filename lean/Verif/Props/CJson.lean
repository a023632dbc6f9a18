import Verif.Proofs.CJsonDoc
/-
Properties C49, C50, C62 and C63: the JSON parser.
-/
namespace Verif.CJson
open Spec (utf8 Scalar Hex4 Str Ws Val commas Within)

/-! ### C49: string literals -/

/-- C49, first part. Wherever a string literal stands in a buffer, the parser returns exactly the bytes the literal denotes (RFC 8259,
RFC 3629) and stops behind its closing quote. -/
theorem c49_decode (pre body out post : List UInt8) (h : Str body out) :
    parseString (pre ++ 0x22 :: body ++ 0x22 :: post) pre.length = .ok (out, pre.length + body.length + 2) := by
  refine parseString_str (post := post) h ?_
  rw [List.append_assoc, List.drop_left]

/-- Case: the string literal `"\n"` behind a bracket and before a comma. -/
example : parseString ([0x5B] ++ 0x22 :: ([0x5C, 0x6E] ++ []) ++ 0x22 :: [0x2C]) 1 = .ok ([0x0A] ++ [], 5) :=
  c49_decode [0x5B] _ _ [0x2C] (.cons [0x5C, 0x6E] [0x0A] [] [] (.letter _ _ (by decide)) .nil)

theorem S_plain_inv {buf : List UInt8} {e : Nat} {u : List UInt8} (hu : ∀ b ∈ u, b ≠ 0x22 ∧ b ≠ 0x5C) : ∀ {i k : Nat} {rest : List UInt8},
    buf.drop i = u ++ rest → S buf e i k → S buf e (i + u.length) k := by
  induction u with
  | nil => intro i k rest _ h; exact h
  | cons a u ih =>
    intro i k rest h hs
    obtain ⟨h1, _, h3⟩ := drop_cons h
    obtain ⟨a1, a2⟩ := hu a (List.mem_cons_self ..)
    have hs' : S buf e (i + 1) k := by
      cases hs with
      | stop hq => rw [hq] at h1; cases h1; exact absurd rfl a1
      | esc i k hq hs => rw [hq] at h1; cases h1; exact absurd rfl a2
      | plain i k b h _ _ hs => exact hs
    have := ih (fun b hb => hu b (List.mem_cons_of_mem _ hb)) h3 hs'
    rw [List.length_cons]
    rwa [Nat.add_assoc, Nat.add_comm 1] at this

theorem S_esc_inv {buf : List UInt8} {e i k : Nat} {t : List UInt8} (h : buf.drop i = 0x5C :: t) (hs : S buf e i k) : ∃ k', S buf e (i + 2) k' := by
  have h1 := (drop_cons h).1
  cases hs with
  | stop hq => rw [hq] at h1; cases h1
  | esc i k h hs => exact ⟨k, hs⟩
  | plain i k b hq _ h2 hs => rw [hq] at h1; cases h1; exact absurd rfl h2

theorem S_hex_inv {buf : List UInt8} {e i : Nat} {hs rest : List UInt8} {c k : Nat} (hh : Hex4 hs c) (h : buf.drop i = 0x5C :: 0x75 :: hs ++ rest)
    (hS : S buf e i k) : ∃ k', S buf e (i + 6) k' := by
  obtain ⟨k', h'⟩ := S_esc_inv h hS
  have h5 := (drop_cons (drop_cons h).2.2).2.2
  have := S_plain_inv (hex4_plain hh).2 h5 h'
  rw [(hex4_plain hh).1] at this
  exact ⟨k', this⟩

theorem S_str_inv {buf : List UInt8} {e : Nat} {body o : List UInt8} (hs : Str body o) : ∀ {i k : Nat} {rest : List UInt8},
    buf.drop i = body ++ rest → S buf e i k → ∃ k', S buf e (i + body.length) k' := by
  induction hs with
  | nil => intro i k rest _ h; exact ⟨k, h⟩
  | cons u o s t hu hs ih =>
    intro i k rest h hS
    rw [List.append_assoc] at h
    have : ∃ k', S buf e (i + u.length) k' := by
      cases hu with
      | raw c hs h1 h2 h3 => exact ⟨k, S_plain_inv (utf8_plain hs h2 h3) h hS⟩
      | letter b c hm => exact S_esc_inv h hS
      | hex hs c hh hc =>
        rw [List.length_cons, List.length_cons, (hex4_plain hh).1]
        exact S_hex_inv hh h hS
      | pair hs ls hi lo h1 h2 b1 b2 =>
        have l1 := (hex4_plain h1).1
        have l2 := (hex4_plain h2).1
        have h' : buf.drop i = (0x5C :: 0x75 :: hs) ++ (0x5C :: 0x75 :: ls ++ (s ++ rest)) := by rw [h]; simp
        have h'' := drop_append h'
        rw [List.length_cons, List.length_cons, l1] at h''
        obtain ⟨k1, s1⟩ := S_hex_inv h1 h' hS
        obtain ⟨k2, s2⟩ := S_hex_inv h2 h'' s1
        refine ⟨k2, ?_⟩
        have hl : (0x5C :: 0x75 :: hs ++ 0x5C :: 0x75 :: ls : List UInt8).length = 12 := by simp [l1, l2]
        rw [hl]
        exact s2
    obtain ⟨k', h'⟩ := this
    rw [List.length_append, ← Nat.add_assoc]
    exact ih (drop_append h) h'

theorem decode_prefix {buf : List UInt8} {e cap : Nat} {body o : List UInt8} (hs : Str body o) : ∀ {i : Nat} {post : List UInt8} (out : List UInt8),
    buf.drop i = body ++ post → i + body.length ≤ e → Next (decode buf e cap i out) (decode buf e cap (i + body.length) (out ++ o)) := by
  induction hs with
  | nil => intro i post out h he; exact .inl (by simp)
  | cons u o s t hu hs ih =>
    intro i post out h he
    rw [List.length_append] at he ⊢
    rw [List.append_assoc] at h
    refine Next.trans (decode_unit hu out h (by omega)) ?_
    have := ih (out ++ o) (drop_append h) (by omega)
    rwa [List.append_assoc, Nat.add_assoc] at this

/-- A string whose decoding is refused somewhere after a well-formed beginning is refused. -/
theorem refuse {buf : List UInt8} {i : Nat} {body out rest : List UInt8} (h : Str body out) (hb : buf.drop i = 0x22 :: body ++ 0x5C :: 0x75 :: rest)
    (hu : ∀ e, e < buf.length → i + 1 + body.length + 2 ≤ e → utf16 buf (i + 1 + body.length) e = .error .reject) : parseString buf i = .error .reject := by
  have hlt := (drop_cons hb).2.1
  have hsafe := (parseString_safe hlt).1
  have hno : ∀ x, parseString buf i ≠ .ok x := by
    intro x hx
    unfold parseString at hx
    rw [rd_drop hb] at hx
    dsimp only at hx
    rw [if_neg (by decide)] at hx
    have hb1 := (drop_cons hb).2.2
    cases hsc : scan buf (i + 1) 0 with
    | error y => rw [hsc] at hx; cases hx
    | ok ek =>
      obtain ⟨e, k⟩ := ek
      rw [hsc] at hx
      dsimp only at hx
      obtain ⟨k', _, hS⟩ := scan_S buf (i + 1) 0 e k hsc
      obtain ⟨k1, hS1⟩ := S_str_inv h hb1 hS
      have hb2 := drop_append hb1
      obtain ⟨k2, hS2⟩ := S_esc_inv hb2 hS1
      have hle := hS2.le
      have hrej : ∀ cap o, decode buf e cap (i + 1 + body.length) o = .error .reject := by
        intro cap o
        rw [decode, dif_pos (by omega), rd_drop hb2]
        dsimp only
        rw [if_neg (by decide), rd_drop (drop_cons hb2).2.2]
        dsimp only
        rw [if_pos rfl, hu e hS2.inside (by omega)]
      rcases decode_prefix (e := e) (i := i + 1) (cap := e - i - k + 1) h [] hb1 (by omega) with hd | hd
      · rw [hd, hrej] at hx; cases hx
      · rw [hd] at hx; cases hx
  cases hp : parseString buf i with
  | ok x => exact absurd hp (hno x)
  | error x => rw [hsafe x hp]

/-- C49, second part. A low surrogate that does not follow a high one makes the string refused, whatever follows it. -/
theorem c49_lone_low (pre body out hs rest : List UInt8) (c : Nat) (h : Str body out) (hh : Hex4 hs c) (h1 : 0xDC00 ≤ c) (h2 : c ≤ 0xDFFF) :
    parseString (pre ++ 0x22 :: body ++ 0x5C :: 0x75 :: hs ++ rest) pre.length = .error .reject := by
  have hb : (pre ++ 0x22 :: body ++ 0x5C :: 0x75 :: hs ++ rest).drop pre.length = 0x22 :: body ++ 0x5C :: 0x75 :: (hs ++ rest) := by
    rw [List.append_assoc, List.append_assoc, List.drop_left]; simp
  refine refuse h hb fun e he _ => ?_
  have h5 := (drop_cons (drop_cons (drop_append (drop_cons hb).2.2)).2.2).2.2
  unfold utf16
  split
  · rfl
  · rw [hexv_of hh h5]
    dsimp only
    rw [if_pos ⟨h1, h2⟩]

/-- C49, third part. A high surrogate that is not followed by an escaped low one makes the string refused, whatever follows it. -/
theorem c49_lone_high (pre body out hs rest : List UInt8) (c : Nat) (h : Str body out) (hh : Hex4 hs c) (h1 : 0xD800 ≤ c) (h2 : c ≤ 0xDBFF)
    (hn : ¬ ∃ ls d r, rest = 0x5C :: 0x75 :: ls ++ r ∧ Hex4 ls d ∧ 0xDC00 ≤ d ∧ d ≤ 0xDFFF) :
    parseString (pre ++ 0x22 :: body ++ 0x5C :: 0x75 :: hs ++ rest) pre.length = .error .reject := by
  have hb : (pre ++ 0x22 :: body ++ 0x5C :: 0x75 :: hs ++ rest).drop pre.length = 0x22 :: body ++ 0x5C :: 0x75 :: (hs ++ rest) := by
    rw [List.append_assoc, List.append_assoc, List.drop_left]; simp
  generalize pre ++ 0x22 :: body ++ 0x5C :: 0x75 :: hs ++ rest = buf at hb ⊢
  generalize pre.length = i at hb ⊢
  refine refuse h hb fun e he _ => ?_
  have h5 := (drop_cons (drop_cons (drop_append (drop_cons hb).2.2)).2.2).2.2
  have h6 := drop_append h5
  rw [(hex4_plain hh).1] at h6
  generalize i + 1 + body.length = p at h5 h6 ⊢
  unfold utf16
  split
  · rfl
  · rw [hexv_of hh h5]
    dsimp only
    rw [if_neg (by omega), if_pos ⟨h1, h2⟩]
    split
    · rfl
    · rename_i hlen
      rw [rd_ok (show p + 6 < buf.length by omega), rd_ok (show p + 7 < buf.length by omega)]
      dsimp only
      split
      · rfl
      · rename_i hab
        have ha : buf[p + 6]'(by omega) = 0x5C := Classical.byContradiction fun x => hab (.inl x)
        have hb' : buf[p + 7]'(by omega) = 0x75 := Classical.byContradiction fun x => hab (.inr x)
        rw [hex4_four buf (p + 8) (by omega)]
        dsimp only
        split
        · rfl
        · rename_i hd
          exfalso
          apply hn
          have hr : rest = buf[p + 6]'(by omega) :: buf[p + 7]'(by omega) ::
              [buf[p + 8]'(by omega), buf[p + 8 + 1]'(by omega), buf[p + 8 + 2]'(by omega), buf[p + 8 + 3]'(by omega)] ++ buf.drop (p + 12) := by
            rw [show p + 1 + 1 + 4 = p + 6 by omega] at h6
            rw [← h6, List.drop_eq_getElem_cons (by omega), List.drop_eq_getElem_cons (by omega), List.drop_eq_getElem_cons (by omega),
              List.drop_eq_getElem_cons (by omega), List.drop_eq_getElem_cons (by omega), List.drop_eq_getElem_cons (by omega)]
            rfl
          rw [ha, hb'] at hr
          refine ⟨_, hexv (buf[p + 8]'(by omega)) (buf[p + 8 + 1]'(by omega)) (buf[p + 8 + 2]'(by omega)) (buf[p + 8 + 3]'(by omega)), _, hr, ?_,
            by omega, by omega⟩
          revert hd
          unfold hexv
          intro hd
          split at hd
          · rename_i x y z w e1 e2 e3 e4
            refine ⟨_, _, _, _, x, y, z, w, rfl, ?_, ?_, ?_, ?_, ?_⟩
            · rw [hexDigit_spec]; exact e1
            · rw [hexDigit_spec]; exact e2
            · rw [hexDigit_spec]; exact e3
            · rw [hexDigit_spec]; exact e4
            · simp only [e1, e2, e3, e4]
          · omega

/-- A literal with a raw two-byte character, a letter escape, an escape of the basic plane and a pair. -/
def c49_body : List UInt8 := "é\\n\\u20aC\\ud83d\\uDE00".toUTF8.toList

/-- The hypothesis of `c49_decode` holds for this literal. -/
theorem c49_example : Str c49_body "é\n€😀".toUTF8.toList := by
  have h : Str (utf8 0xE9 ++ ([0x5C, 0x6E] ++ ((0x5C :: 0x75 :: [0x32, 0x30, 0x61, 0x43]) ++ ((0x5C :: 0x75 :: [0x64, 0x38, 0x33, 0x64] ++ 0x5C :: 0x75 :: [0x44, 0x45, 0x30, 0x30]) ++ []))))
      (utf8 0xE9 ++ ([0x0A] ++ (utf8 0x20AC ++ (utf8 (0x10000 + 0x3D * 1024 + 0x200) ++ [])))) := by
    refine .cons _ _ _ _ (.raw 0xE9 (.inl (by decide)) (by decide) (by decide) (by decide)) ?_
    refine .cons _ _ _ _ (.letter _ _ (by decide)) ?_
    refine .cons _ _ _ _ (.hex _ _ ⟨_, _, _, _, 2, 0, 10, 12, rfl, by decide +kernel, by decide +kernel, by decide +kernel, by decide +kernel, rfl⟩ (.inl (by decide))) ?_
    refine .cons _ _ _ _ (.pair _ _ 0x3D 0x200 ⟨_, _, _, _, 13, 8, 3, 13, rfl, by decide +kernel, by decide +kernel, by decide +kernel, by decide +kernel, rfl⟩
      ⟨_, _, _, _, 13, 14, 0, 0, rfl, by decide +kernel, by decide +kernel, by decide +kernel, by decide +kernel, rfl⟩ (by decide) (by decide)) .nil
  have e1 : c49_body = utf8 0xE9 ++ ([0x5C, 0x6E] ++ ((0x5C :: 0x75 :: [0x32, 0x30, 0x61, 0x43]) ++ ((0x5C :: 0x75 :: [0x64, 0x38, 0x33, 0x64] ++ 0x5C :: 0x75 :: [0x44, 0x45, 0x30, 0x30]) ++ []))) := by
    decide +kernel
  have e2 : "é\n€😀".toUTF8.toList = utf8 0xE9 ++ ([0x0A] ++ (utf8 0x20AC ++ (utf8 (0x10000 + 0x3D * 1024 + 0x200) ++ []))) := by decide +kernel
  rw [e1, e2]
  exact h

/-- The hypotheses of `c49_lone_high` hold for a high surrogate followed by a letter. -/
example : parseString ([] ++ 0x22 :: [] ++ 0x5C :: 0x75 :: [0x64, 0x38, 0x33, 0x64] ++ [0x61, 0x22]) 0 = .error .reject := by
  refine c49_lone_high [] [] [] _ [0x61, 0x22] 0xD83D .nil ⟨_, _, _, _, 13, 8, 3, 13, rfl, by decide +kernel, by decide +kernel, by decide +kernel, by decide +kernel, rfl⟩ (by decide) (by decide) ?_
  rintro ⟨ls, d, r, h, _⟩
  cases h

/-- The hypotheses of `c49_lone_low` hold. -/
example : parseString ([] ++ 0x22 :: [] ++ 0x5C :: 0x75 :: [0x44, 0x45, 0x30, 0x30] ++ [0x61, 0x22]) 0 = .error .reject :=
  c49_lone_low [] [] [] _ [0x61, 0x22] 0xDE00 .nil ⟨_, _, _, _, 13, 14, 0, 0, rfl, by decide +kernel, by decide +kernel, by decide +kernel, by decide +kernel, rfl⟩ (by decide) (by decide)

/-- Beyond C49: an escape whose four characters are no hexadecimal digits is not refused but read as the character 0. -/
theorem c49_bad_hex_counterexample (pre body out hs post : List UInt8) (h : Str body out) (hl : hs.length = 4)
    (hp : ∀ b ∈ hs, b ≠ 0x22 ∧ b ≠ 0x5C) (hx : ∃ b ∈ hs, Spec.hexDigit b = none) :
    parseString (pre ++ 0x22 :: body ++ 0x5C :: 0x75 :: hs ++ 0x22 :: post) pre.length = .ok (out ++ [0], pre.length + body.length + 8) := by
  obtain ⟨a, b, c, d, rfl⟩ : ∃ a b c d, hs = [a, b, c, d] := by
    match hs, hl with
    | [a, b, c, d], _ => exact ⟨a, b, c, d, rfl⟩
  have hb : (pre ++ 0x22 :: body ++ 0x5C :: 0x75 :: [a, b, c, d] ++ 0x22 :: post).drop pre.length =
      0x22 :: body ++ 0x5C :: 0x75 :: ([a, b, c, d] ++ 0x22 :: post) := by
    rw [List.append_assoc, List.append_assoc, List.drop_left]; simp
  generalize pre ++ 0x22 :: body ++ 0x5C :: 0x75 :: [a, b, c, d] ++ 0x22 :: post = buf at hb ⊢
  generalize pre.length = i at hb ⊢
  have hb1 := (drop_cons hb).2.2
  have hb2 := drop_append hb1
  have hb3 := (drop_cons (drop_cons hb2).2.2).2.2
  have hb4 := drop_append hb3
  have hlt := (drop_cons hb).2.1
  obtain ⟨q1, q2, q3⟩ := drop_cons hb4
  rw [show [a, b, c, d].length = 4 from rfl] at q1 q2 q3
  have hS0 : S buf (i + 1 + body.length + 6) (i + 1 + body.length) 1 := by
    refine .esc _ 0 (drop_cons hb2).1 (S_plain hp hb3 ?_)
    exact .stop q1
  have hS : ∃ k, S buf (i + 1 + body.length + 6) (i + 1) k := by
    have key : ∀ {bd o : List UInt8}, Str bd o → ∀ {j : Nat} {r : List UInt8} {e k : Nat}, buf.drop j = bd ++ r → S buf e (j + bd.length) k → ∃ k', S buf e j k' := by
      intro bd o hbd
      induction hbd with
      | nil => intro j r e k _ h; exact ⟨k, h⟩
      | cons u o s t hu hs ih =>
        intro j r e k h hS
        rw [List.append_assoc] at h
        rw [List.length_append, ← Nat.add_assoc] at hS
        obtain ⟨k1, h1⟩ := ih (drop_append h) hS
        exact S_unit hu h h1
    exact key h hb1 hS0
  obtain ⟨k, hk⟩ := hS
  have hsc := scan_of_S hk 0
  have hz : utf16 buf (i + 1 + body.length) (i + 1 + body.length + 6) = .ok (6, [0]) := by
    have hx4 : hex4 buf 4 (i + 1 + body.length + 2) 0 = .ok 0 := by
      rw [hex4_four buf _ (by omega)]
      obtain ⟨a1, l1, r1⟩ := drop_cons hb3
      obtain ⟨a2, l2, r2⟩ := drop_cons r1
      obtain ⟨a3, l3, r3⟩ := drop_cons r2
      obtain ⟨a4, l4, _⟩ := drop_cons r3
      rw [List.getElem?_eq_getElem (by omega)] at a1 a2 a3 a4
      have g1 := Option.some.inj a1
      have g2 := Option.some.inj a2
      have g3 := Option.some.inj a3
      have g4 := Option.some.inj a4
      have g1' : buf[i + 1 + body.length + 2]'(by omega) = a := g1
      have g2' : buf[i + 1 + body.length + 2 + 1]'(by omega) = b := g2
      have g3' : buf[i + 1 + body.length + 2 + 2]'(by omega) = c := g3
      have g4' : buf[i + 1 + body.length + 2 + 3]'(by omega) = d := g4
      rw [g1', g2', g3', g4']
      unfold hexv
      obtain ⟨v, hv, hn⟩ := hx
      rw [hexDigit_spec] at hn
      simp only [List.mem_cons, List.not_mem_nil, or_false] at hv
      split
      · rename_i e1 e2 e3 e4
        rcases hv with rfl | rfl | rfl | rfl
        · rw [hn] at e1; cases e1
        · rw [hn] at e2; cases e2
        · rw [hn] at e3; cases e3
        · rw [hn] at e4; cases e4
      · rfl
    rw [utf16, if_neg (by omega), hx4]
    rfl
  have hsafe := (parseString_safe hlt).1
  revert hsafe
  unfold parseString
  rw [rd_drop hb]
  dsimp only
  rw [if_neg (by decide), hsc]
  dsimp only
  intro hsafe
  have hd : Next (decode buf (i + 1 + body.length + 6) (i + 1 + body.length + 6 - i - (0 + k) + 1) (i + 1) []) (.ok (out ++ [0])) := by
    refine Next.trans (decode_prefix h [] hb1 (by omega)) (Next.trans (decode_u hb2 (by omega) hz (by decide)) ?_)
    rw [decode, dif_neg (by omega)]
    exact .inl rfl
  rcases hd with hd | hd
  · rw [hd] at hsafe ⊢
    dsimp only at hsafe ⊢
    rcases emit_next (i + 1 + body.length + 6 - i - (0 + k) + 1) (out ++ [0]) [0] with he | he
    · rw [he]
      dsimp only
      rw [show i + 1 + body.length + 6 + 1 = i + body.length + 8 by omega]
    · rw [he] at hsafe
      exact absurd (hsafe _ rfl) (by decide)
  · rw [hd] at hsafe
    exact absurd (hsafe _ rfl) (by decide)

/-- Case: the literal `"\uzzzz"`. -/
example : parseString ([] ++ 0x22 :: [] ++ 0x5C :: 0x75 :: [0x7A, 0x7A, 0x7A, 0x7A] ++ 0x22 :: []) 0 = .ok ([0], 8) :=
  c49_bad_hex_counterexample [] [] [] [0x7A, 0x7A, 0x7A, 0x7A] [] .nil rfl (by decide) ⟨0x7A, by decide, by decide +kernel⟩

/-! ### C50: the parser stays inside -/

/-- C50 for a buffer with a length: unless the buffer ends with a comma no byte outside it is read, nothing is written outside an
allocation, and the loops end. Missing: a buffer ending with a comma (see the counterexample). -/
theorem c50_inside_partial {V : Type} (strtod : List UInt8 → Nat × V) (buf : List UInt8) (h : buf.getLast? ≠ some 0x2C) (x : Err)
    (hx : parseLen strtod buf = .error x) : x = .reject := by
  unfold parseLen at hx
  split at hx
  · cases hx; rfl
  · exact (value_good strtod h 1000 _).1 x hx

/-- Case: an array that is not closed is refused, whatever `strtod` does. -/
example : (match parseLen (fun s => (min 1 s.length, s)) [0x5B, 0x31] with
    | .error .reject => true
    | _ => false) = true ∧ [(0x5B : UInt8), 0x31].getLast? ≠ some 0x2C := by decide +kernel

/-- C50 for C strings, the only way the program uses the parser: whatever the text is, no byte outside it is read (nor written, nor does a
loop run on). -/
theorem c50_inside {V : Type} (strtod : List UInt8 → Nat × V) (text : List UInt8) (x : Err) (hx : parse strtod text = .error x) : x = .reject := by
  refine c50_inside_partial strtod _ ?_ x hx
  rw [List.getLast?_append]
  simp

theorem elems_all {V : Type} {val : Nat → R (J V × Nat)} {buf : List UInt8} {Q : J V → Prop} (hv : ∀ i v j, val i = .ok (v, j) → Q v) (fuel i : Nat)
    (acc xs : List (J V)) (k : Nat) (h : elems val buf fuel i acc = .ok (xs, k)) (ha : ∀ x ∈ acc, Q x) : ∀ x ∈ xs, Q x := by
  induction fuel generalizing i acc with
  | zero => cases h
  | succ fuel ih =>
    rw [elems] at h
    cases hval : val (skipWs buf (i + 1)) with
    | error e => rw [hval] at h; cases h
    | ok vj =>
      obtain ⟨v, j⟩ := vj
      rw [hval] at h
      dsimp only at h
      have ha' : ∀ x ∈ acc ++ [v], Q x := by
        intro x hx
        rcases List.mem_append.mp hx with hx | hx
        · exact ha x hx
        · rw [List.mem_singleton.mp hx]; exact hv _ _ _ hval
      split at h
      · exact ih _ _ h ha'
      · split at h
        · cases h; exact ha'
        · cases h

theorem members_all {V : Type} {val : Nat → R (J V × Nat)} {buf : List UInt8} {Q : J V → Prop} (hv : ∀ i v j, val i = .ok (v, j) → Q v) (fuel i : Nat)
    (acc xs : List (List UInt8 × J V)) (k : Nat) (h : members val buf fuel i acc = .ok (xs, k)) (ha : ∀ x ∈ acc, Q x.2) : ∀ x ∈ xs, Q x.2 := by
  induction fuel generalizing i acc with
  | zero => cases h
  | succ fuel ih =>
    rw [members] at h
    cases hs : parseString buf (skipWs buf (i + 1)) with
    | error e => rw [hs] at h; cases h
    | ok nj =>
      obtain ⟨name, j⟩ := nj
      rw [hs] at h
      dsimp only at h
      split at h
      · cases hval : val (skipWs buf (skipWs buf j + 1)) with
        | error e => rw [hval] at h; cases h
        | ok vj =>
          obtain ⟨v, j'⟩ := vj
          rw [hval] at h
          dsimp only at h
          have ha' : ∀ x ∈ acc ++ [(name, v)], Q x.2 := by
            intro x hx
            rcases List.mem_append.mp hx with hx | hx
            · exact ha x hx
            · rw [List.mem_singleton.mp hx]; exact hv _ _ _ hval
          split at h
          · exact ih _ _ h ha'
          · split at h
            · cases h; exact ha'
            · cases h
      · cases h

theorem value_within {V : Type} (strtod : List UInt8 → Nat × V) (buf : List UInt8) (n : Nat) : ∀ i v j, value strtod buf n i = .ok (v, j) → Within n v := by
  have leaf : ∀ n i, (∀ b v j, nested strtod buf n i b = .ok (v, j) → Within n v) → ∀ v j, value strtod buf n i = .ok (v, j) → Within n v := by
    intro n i hn v j h
    rw [value_eq] at h
    split at h
    · cases h; exact .null n
    · split at h
      · cases h; exact .bool n _
      · split at h
        · cases h; exact .bool n _
        · split at h
          · cases h
          · split at h
            · split at h
              · cases h
              · cases h; exact .str n _
            · split at h
              · unfold parseNumber at h
                dsimp only at h
                split at h
                · cases h
                · cases h; exact .num n _
              · exact hn _ v j h
  induction n with
  | zero => intro i; exact leaf 0 i (fun b v j h => by cases h)
  | succ n ih =>
    intro i
    refine leaf (n + 1) i fun b v j h => ?_
    unfold nested at h
    dsimp only at h
    split at h
    · unfold array at h
      dsimp only at h
      split at h
      · cases h; exact .arr n [] (fun x hx => by cases hx)
      · split at h
        · cases h
        · split at h
          · cases h
          · rename_i xs k he
            cases h
            exact .arr n xs (elems_all ih _ _ _ _ _ he (fun x hx => by cases hx))
    · split at h
      · unfold object at h
        dsimp only at h
        split at h
        · cases h; exact .obj n [] (fun x hx => by cases hx)
        · split at h
          · cases h
          · split at h
            · cases h
            · rename_i xs k he
              cases h
              exact .obj n xs (members_all ih _ _ _ _ _ he (fun x hx => by cases hx))
      · cases h

/-- C50, nesting: whatever is accepted is nested at most 1000 deep. -/
theorem c50_depth {V : Type} (strtod : List UInt8 → Nat × V) (buf : List UInt8) (v : J V) (j : Nat) (h : parseLen strtod buf = .ok (v, j)) :
    Within 1000 v := by
  unfold parseLen at h
  split at h
  · cases h
  · exact value_within strtod buf 1000 _ v j h

/-- The hypothesis of `c50_depth` and the conclusion of `c50_inside` on a nested document: `[{"a":[1]}]`, nested three deep, with a `strtod` that
takes one character. -/
example : (match parse (fun s => (min 1 s.length, s)) "[{\"a\":[1]}] ".toUTF8.toList with
    | .ok (.arr [.obj [([0x61], .arr [.num [0x31]])]], 11) => true
    | _ => false) = true := by decide +kernel

/-- C50 is false for buffers given with a length: with an open object after a comma at the very end, the byte behind the buffer is read. -/
theorem c50_trailing_comma_counterexample {V : Type} (strtod : List UInt8 → Nat × V) (den : List UInt8 → V)
    (hd : ∀ s, Spec.Number s → strtod s = (s.length, den s)) (name out s : List UInt8) (j : J V) (hn : Str name out) (hv : Val (Num den) 999 s j) :
    parseLen strtod (0x7B :: 0x22 :: name ++ 0x22 :: 0x3A :: s ++ [0x2C]) = .error .read := by
  generalize hbuf : (0x7B :: 0x22 :: name ++ 0x22 :: 0x3A :: s ++ [0x2C] : List UInt8) = buf
  have h0 : buf.drop 0 = 0x7B :: (0x22 :: name ++ 0x22 :: 0x3A :: s ++ [0x2C]) := by rw [← hbuf]; rfl
  have hne : buf ≠ [] := by rw [← hbuf]; simp
  have hbom : bom buf = 0 := by
    unfold bom
    rw [if_neg]
    rintro ⟨_, h⟩
    rw [← hbuf] at h
    simp at h
  have hw : skipWs buf 0 = 0 := skipWs_ws (w := []) (fun b hb => by cases hb) (by decide) h0
  have h1 := (drop_cons h0).2.2
  rw [Nat.zero_add] at h1
  have hw1 : skipWs buf 1 = 1 := skipWs_ws (w := []) (fun b hb => by cases hb) (by decide) h1
  have hlen : buf.length = name.length + s.length + 5 := by rw [← hbuf]; simp; omega
  let x : (List UInt8 × List UInt8 × List UInt8 × List UInt8) × List UInt8 × List UInt8 × List UInt8 × J V := (([], name, out, []), [], s, [], j)
  have hb : buf.drop (0 + 1) = memText x ++ 0x2C :: [] := by
    show buf.drop 1 = _
    rw [h1]; simp [memText, x]
  have hx := member_step (val := value strtod buf 999) x
    ⟨fun b hb => (by cases hb), fun _ _ => parseString_str hn, fun b hb => (by cases hb), fun b hb => (by cases hb), value_of_val hd 999 _ _ hv, val_head hv, fun b hb => by cases hb⟩
    (name.length + s.length + 4 + 1) 0 [] 0x2C [] hb (by decide) (by decide)
  have hml : (memText x).length = name.length + s.length + 3 := by simp [memText, x]; omega
  rw [parseLen, if_neg hne, hbom, hw, value_open h0 (.inr rfl)]
  show nested strtod buf (999 + 1) 0 0x7B = _
  rw [nested, if_neg (by decide), if_pos rfl]
  unfold object
  dsimp only
  rw [hw1, isAt_drop h1, if_neg (by decide), if_neg (by omega), show buf.length + 1 = name.length + s.length + 4 + 1 + 1 by omega, hx, if_pos rfl, members]
  have hend : skipWs buf (0 + 1 + (memText x).length + 1) = buf.length := by
    rw [skipWs, if_neg (by omega)]; omega
  rw [hend]
  have : parseString buf buf.length = .error .read := by
    unfold parseString rd
    rw [List.getElem?_eq_none (Nat.le_refl _)]
  rw [this]

/-- The hypotheses of the counterexample hold: `{"":null,`. -/
example {V : Type} (den : List UInt8 → V) : Str [] [] ∧ Val (Num den) 999 [0x6E, 0x75, 0x6C, 0x6C] .null :=
  ⟨.nil, by unfold Val; exact .inl ⟨rfl, rfl⟩⟩

/-! ### C62: decoding a string -/

/-- C62. Decoding a string literal never writes outside the memory allocated for it (and never reads outside the buffer), and what is
returned is shorter than the literal: every position of every buffer. -/
theorem c62_string_memory (buf : List UInt8) (i : Nat) (hi : i < buf.length) :
    (∀ x, parseString buf i = .error x → x = .reject) ∧
    (∀ s j, parseString buf i = .ok (s, j) → j ≤ buf.length ∧ s.length + 2 ≤ j - i) := by
  obtain ⟨h1, h2⟩ := parseString_safe hi
  refine ⟨h1, fun s j h => ?_⟩
  obtain ⟨a, b, c⟩ := h2 s j h
  exact ⟨b, by omega⟩

/-- The allocation is really tight: a literal of only raw bytes needs all of it but one byte, so the bound is not trivially large. -/
example : emit 3 [0x61, 0x62] [0] = .ok [0x61, 0x62, 0] ∧ emit 3 [0x61, 0x62, 0x63] [0] = .error .write := ⟨rfl, rfl⟩

/-! ### C63: well-formed documents -/

/-- A position in a document: behind the byte order mark, if one is there. -/
theorem skip_start {buf w : List UInt8} {b : UInt8} {t : List UInt8} (hw : Ws w) (hb : 32 < b) (hn : b ≠ 0xEF) (h : buf = w ++ b :: t) :
    skipWs buf (bom buf) = w.length := by
  have hbom : bom buf = 0 := by
    unfold bom
    rw [if_neg]
    rintro ⟨_, he⟩
    rw [h] at he
    cases w with
    | nil => simp at he; exact hn he.1
    | cons a w =>
      simp at he
      rcases hw a (List.mem_cons_self ..) with rfl | rfl | rfl | rfl <;> exact absurd he.1 (by decide)
  rw [hbom]
  have := skipWs_ws (buf := buf) (i := 0) (ws_blank hw) hb (by rw [List.drop_zero]; exact h)
  omega

theorem val_not_bom {V : Type} {den : List UInt8 → V} {n : Nat} {s : List UInt8} {j : J V} (h : Val (Num den) n s j) : ∀ b t, s = b :: t → b ≠ 0xEF := by
  intro b t hs
  unfold Val at h
  rcases h with ⟨rfl, _⟩ | ⟨rfl, _⟩ | ⟨rfl, _⟩ | ⟨v, ⟨hn, _⟩, _⟩ | ⟨b, o, _, rfl, _⟩ | h
  · cases hs; decide
  · cases hs; decide
  · cases hs; decide
  · obtain ⟨_, b', t', rfl, hb⟩ := number_chars hn
    cases hs
    exact byte_all (p := fun b => (b = 0x2D ∨ (0x30 ≤ b ∧ b ≤ 0x39)) → b ≠ 0xEF) (by decide +kernel) _ hb
  · cases hs; decide
  · cases n with
    | zero => exact h.elim
    | succ n =>
      rcases h with ⟨w, _, rfl, _⟩ | ⟨w, _, rfl, _⟩ | ⟨it, _, _, rfl, _⟩ | ⟨it, _, _, rfl, _⟩ <;> cases hs <;> decide

theorem takeWhile_all (p : UInt8 → Bool) (l : List UInt8) (h : ∀ b ∈ l, p b = true) : l.takeWhile p = l := by
  induction l with
  | nil => rfl
  | cons a l ih => rw [List.takeWhile_cons, if_pos (h a (List.mem_cons_self ..)), ih fun b hb => h b (List.mem_cons_of_mem _ hb)]

theorem hex4_nz {hs : List UInt8} {c : Nat} (h : Hex4 hs c) : ∀ b ∈ hs, b ≠ 0 := by
  obtain ⟨a, b, d, e, x, y, z, w, rfl, h1, h2, h3, h4, _⟩ := h
  have key : ∀ v, (Spec.hexDigit v).isSome = true → v ≠ 0 :=
    byte_all (p := fun b => (Spec.hexDigit b).isSome = true → b ≠ 0) (by decide +kernel)
  intro v hv
  simp only [List.mem_cons, List.not_mem_nil, or_false] at hv
  rcases hv with rfl | rfl | rfl | rfl
  · exact key _ (by rw [h1]; rfl)
  · exact key _ (by rw [h2]; rfl)
  · exact key _ (by rw [h3]; rfl)
  · exact key _ (by rw [h4]; rfl)

theorem esc_nz {hs : List UInt8} {c : Nat} (h : Hex4 hs c) : ∀ b ∈ 0x5C :: 0x75 :: hs, b ≠ 0 := by
  intro b hb
  rcases List.mem_cons.mp hb with rfl | hb
  · decide
  · rcases List.mem_cons.mp hb with rfl | hb
    · decide
    · exact hex4_nz h b hb

theorem utf8_nz {c : Nat} (hs : Scalar c) (h : 0x20 ≤ c) : ∀ b ∈ utf8 c, b ≠ 0 := by
  have hle : c ≤ 0x10FFFF := by rcases hs with h | h <;> omega
  intro b hb
  by_cases hc : c < 0x80
  · unfold utf8 at hb
    rw [if_pos hc, List.mem_singleton] at hb
    subst hb
    intro e
    have := congrArg UInt8.toNat e
    rw [UInt8.toNat_ofNat', show (0 : UInt8).toNat = 0 from rfl] at this
    omega
  · have := utf8_high (by omega) hle b hb
    rintro rfl
    exact absurd this (by decide)

theorem str_nz {s o : List UInt8} (h : Str s o) : ∀ b ∈ s, b ≠ 0 := by
  induction h with
  | nil => intro b hb; cases hb
  | cons u o s t hu hs ih =>
    intro b hb
    rcases List.mem_append.mp hb with hb | hb
    · cases hu with
      | raw c hs h1 h2 h3 => exact utf8_nz hs h1 b hb
      | letter b' c hm =>
        have : ∀ x ∈ Spec.letters, x.1 ≠ 0 := by decide
        simp only [List.mem_cons, List.not_mem_nil, or_false] at hb
        rcases hb with rfl | rfl
        · decide
        · exact this _ hm
      | hex hs c hh hc => exact esc_nz hh b hb
      | pair hs ls hi lo h1 h2 b1 b2 =>
        rcases List.mem_append.mp hb with hb | hb
        · exact esc_nz h1 b hb
        · exact esc_nz h2 b hb
    · exact ih b hb

theorem ws_nz {w : List UInt8} (h : Ws w) : ∀ b ∈ w, b ≠ 0 := by
  intro b hb e
  rcases h b hb with h | h | h | h <;> rw [h] at e <;> exact absurd e (by decide)

theorem commas_nz : ∀ (xs : List (List UInt8)), (∀ x ∈ xs, ∀ b ∈ x, b ≠ 0) → ∀ b ∈ commas xs, b ≠ 0
  | [], _, b, hb => by cases hb
  | [x], h, b, hb => h x (List.mem_cons_self ..) b hb
  | x :: y :: xs, h, b, hb => by
    rw [commas] at hb
    rcases List.mem_append.mp hb with hb | hb
    · exact h x (List.mem_cons_self ..) b hb
    · rcases List.mem_cons.mp hb with rfl | hb
      · decide
      · exact commas_nz (y :: xs) (fun z hz => h z (List.mem_cons_of_mem _ hz)) b hb

/-- No text of a value contains the byte 0. -/
theorem val_nz {V : Type} {den : List UInt8 → V} (n : Nat) : ∀ (s : List UInt8) (j : J V), Val (Num den) n s j → ∀ b ∈ s, b ≠ 0 := by
  have wrap : ∀ (a z : UInt8) (t : List UInt8), a ≠ 0 → z ≠ 0 → (∀ b ∈ t, b ≠ 0) → ∀ b ∈ a :: t ++ [z], b ≠ 0 := by
    intro a z t ha hz ht b hb
    rcases List.mem_append.mp hb with hb | hb
    · rcases List.mem_cons.mp hb with rfl | hb
      · exact ha
      · exact ht b hb
    · rw [List.mem_singleton.mp hb]; exact hz
  induction n with
  | zero =>
    intro s j h
    unfold Val at h
    rcases h with ⟨rfl, _⟩ | ⟨rfl, _⟩ | ⟨rfl, _⟩ | ⟨v, ⟨hn, _⟩, _⟩ | ⟨b, o, hs, rfl, _⟩ | h
    · decide
    · decide
    · decide
    · intro b hb e
      have := (number_chars hn).1 b hb
      rw [e] at this
      exact absurd this (by decide)
    · exact wrap _ _ _ (by decide) (by decide) (str_nz hs)
    · exact h.elim
  | succ n ih =>
    intro s j h
    unfold Val at h
    rcases h with ⟨rfl, _⟩ | ⟨rfl, _⟩ | ⟨rfl, _⟩ | ⟨v, ⟨hn, _⟩, _⟩ | ⟨b, o, hs, rfl, _⟩ | h
    · decide
    · decide
    · decide
    · intro b hb e
      have := (number_chars hn).1 b hb
      rw [e] at this
      exact absurd this (by decide)
    · exact wrap _ _ _ (by decide) (by decide) (str_nz hs)
    · dsimp only at h
      rcases h with ⟨w, hw, rfl, _⟩ | ⟨w, hw, rfl, _⟩ | ⟨it, _, hit, rfl, _⟩ | ⟨it, _, hit, rfl, _⟩
      · exact wrap _ _ _ (by decide) (by decide) (ws_nz hw)
      · exact wrap _ _ _ (by decide) (by decide) (ws_nz hw)
      · refine wrap _ _ _ (by decide) (by decide) (commas_nz _ fun x hx b hb => ?_)
        obtain ⟨y, hy, rfl⟩ := List.mem_map.mp hx
        obtain ⟨h1, h2, h3⟩ := hit y hy
        rcases List.mem_append.mp hb with hb | hb
        · rcases List.mem_append.mp hb with hb | hb
          · exact ws_nz h1 b hb
          · exact ih _ _ h2 b hb
        · exact ws_nz h3 b hb
      · refine wrap _ _ _ (by decide) (by decide) (commas_nz _ fun x hx b hb => ?_)
        obtain ⟨y, hy, rfl⟩ := List.mem_map.mp hx
        obtain ⟨h1, h2, h3, h4, h5, h6⟩ := hit y hy
        simp only [List.mem_append, List.mem_cons] at hb
        rcases hb with (((((hb | hb | hb) | hb | hb) | hb | hb) | hb) | hb)
        · exact ws_nz h1 b hb
        · rw [hb]; decide
        · exact str_nz h2 b hb
        · rw [hb]; decide
        · exact ws_nz h3 b hb
        · rw [hb]; decide
        · exact ws_nz h4 b hb
        · exact ih _ _ h5 b hb
        · exact ws_nz h6 b hb

/-- C63. Every JSON text nested at most 1000 deep, with white space around it, is parsed to exactly the value it denotes, whatever meaning the
library gives to numbers. Missing: numbers of more than 63 characters. -/
theorem c63_document_partial {V : Type} (strtod : List UInt8 → Nat × V) (den : List UInt8 → V) (hd : ∀ s, Spec.Number s → strtod s = (s.length, den s))
    (w s w' : List UInt8) (j : J V) (hw : Ws w) (hw' : Ws w') (h : Val (fun s v => Spec.Number s ∧ s.length ≤ 63 ∧ v = den s) 1000 s j) :
    parse strtod (w ++ s ++ w') = .ok (j, w.length + s.length) := by
  have hv : Val (Num den) 1000 s j := h
  obtain ⟨b, t, rfl, hb, _, _⟩ := val_head hv
  have hn := val_not_bom hv b t rfl
  have htw : (w ++ (b :: t) ++ w').takeWhile (· ≠ 0) = w ++ (b :: t) ++ w' := by
    apply takeWhile_all
    intro c hc
    rw [decide_eq_true_eq]
    rcases List.mem_append.mp hc with hc | hc
    · rcases List.mem_append.mp hc with hc | hc
      · exact ws_nz hw c hc
      · exact val_nz 1000 _ _ hv c hc
    · exact ws_nz hw' c hc
  unfold parse parseLen
  rw [htw, if_neg (by simp)]
  have he : w ++ (b :: t) ++ w' ++ [0] = w ++ b :: (t ++ (w' ++ [0])) := by simp
  rw [skip_start hw hb hn he]
  refine value_of_val hd 1000 _ _ hv _ (w' ++ [0]) ?_ (stop_ws (ws_blank hw') (stop_cons (by decide) _))
  rw [he, List.drop_left]; rfl

/-- C63 with a byte order mark: the three bytes EF BB BF in front of the text are skipped. Missing: as above. -/
theorem c63_bom_partial {V : Type} (strtod : List UInt8 → Nat × V) (den : List UInt8 → V) (hd : ∀ s, Spec.Number s → strtod s = (s.length, den s))
    (w s w' : List UInt8) (j : J V) (hw : Ws w) (hw' : Ws w') (h : Val (fun s v => Spec.Number s ∧ s.length ≤ 63 ∧ v = den s) 1000 s j) :
    parse strtod ([0xEF, 0xBB, 0xBF] ++ (w ++ s ++ w')) = .ok (j, 3 + w.length + s.length) := by
  have hv : Val (Num den) 1000 s j := h
  obtain ⟨b, t, rfl, hb, _, _⟩ := val_head hv
  have htw : ([0xEF, 0xBB, 0xBF] ++ (w ++ (b :: t) ++ w')).takeWhile (· ≠ 0) = [0xEF, 0xBB, 0xBF] ++ (w ++ (b :: t) ++ w') := by
    apply takeWhile_all
    intro c hc
    rw [decide_eq_true_eq]
    rcases List.mem_append.mp hc with hc | hc
    · simp only [List.mem_cons, List.not_mem_nil, or_false] at hc
      rcases hc with rfl | rfl | rfl <;> decide
    · rcases List.mem_append.mp hc with hc | hc
      · rcases List.mem_append.mp hc with hc | hc
        · exact ws_nz hw c hc
        · exact val_nz 1000 _ _ hv c hc
      · exact ws_nz hw' c hc
  unfold parse parseLen
  rw [htw, if_neg (by simp)]
  have he : [0xEF, 0xBB, 0xBF] ++ (w ++ (b :: t) ++ w') ++ [0] = [0xEF, 0xBB, 0xBF] ++ (w ++ b :: (t ++ (w' ++ [0]))) := by simp
  have hbom : bom ([0xEF, 0xBB, 0xBF] ++ (w ++ b :: (t ++ (w' ++ [0])))) = 3 := by
    unfold bom
    rw [if_pos]
    refine ⟨?_, ?_⟩
    · simp only [List.length_append, List.length_cons, List.length_nil]; omega
    · simp
  rw [he, hbom, skipWs_ws (i := 3) (ws_blank hw) hb (by simp; rfl)]
  refine value_of_val hd 1000 _ _ hv _ (w' ++ [0]) ?_ (stop_ws (ws_blank hw') (stop_cons (by decide) _))
  rw [← List.drop_drop, show List.drop 3 ([0xEF, 0xBB, 0xBF] ++ (w ++ b :: (t ++ (w' ++ [0])))) = w ++ b :: (t ++ (w' ++ [0])) by simp,
    List.drop_left]
  rfl

/-- C63 is false with a byte order mark for a buffer with a length: the mark is not skipped if only one byte follows, so that a number of one digit, or anything else of one byte,
is refused behind it. -/
theorem c63_bom_short_counterexample {V : Type} (strtod : List UInt8 → Nat × V) (b : UInt8) : parseLen strtod [0xEF, 0xBB, 0xBF, b] = .error .reject := by
  have h1 : bom [0xEF, 0xBB, 0xBF, b] = 0 := by unfold bom; rw [if_neg (by simp)]
  have h2 : skipWs [0xEF, 0xBB, 0xBF, b] 0 = 0 := by
    have : skipRun [0xEF, 0xBB, 0xBF, b] 0 = 0 := by unfold skipRun; simp
    simp [skipWs, this]
  unfold parseLen
  rw [if_neg (by simp), h1, h2]
  unfold value
  simp [word]

/-- Case: the digit 1 is read without the mark, and refused behind it. -/
example : parseLen (fun s => (s.length, s)) [0x31] = .ok (.num [0x31], 1) ∧ parseLen (fun s => (s.length, s)) [0xEF, 0xBB, 0xBF, 0x31] = .error .reject :=
  ⟨by
    have h1 : bom [0x31] = 0 := by decide
    have h2 : skipWs [0x31] 0 = 0 := by
      have : skipRun [0x31] 0 = 0 := by unfold skipRun; simp
      simp [skipWs, this]
    unfold parseLen
    rw [if_neg (by simp), h1, h2]
    unfold value
    simp [word, parseNumber, numChar], c63_bom_short_counterexample _ _⟩

/-- The hypotheses of `c63_document_partial` (and of `c63_bom_partial`) hold for ` [{"k": -1.5e+2}, true]`. -/
example (den : List UInt8 → Nat) : Val (fun s v => Spec.Number s ∧ s.length ≤ 63 ∧ v = den s) 1000
    "[{\"k\": -1.5e+2}, true]".toUTF8.toList (.arr [.obj [("k".toUTF8.toList, .num (den "-1.5e+2".toUTF8.toList))], .bool true]) := by
  have hk : Str "k".toUTF8.toList "k".toUTF8.toList := by
    have : Str (utf8 0x6B ++ []) (utf8 0x6B ++ []) := .cons _ _ _ _ (.raw 0x6B (.inl (by decide)) (by decide) (by decide) (by decide)) .nil
    have e : "k".toUTF8.toList = utf8 0x6B ++ [] := by decide +kernel
    rw [e]; exact this
  have hnum : Spec.Number "-1.5e+2".toUTF8.toList := by
    refine ⟨[0x2D], [0x31], [0x2E, 0x35], [0x65, 0x2B, 0x32], by decide +kernel, .inr rfl, ⟨by decide, by decide +kernel⟩, .inr (by decide),
      .inr ⟨[0x35], ⟨by decide, by decide +kernel⟩, rfl⟩, .inr ⟨0x65, [0x2B], [0x32], .inl rfl, .inr (.inl rfl), ⟨by decide, by decide +kernel⟩, rfl⟩⟩
  have h3 : Val (fun s v => Spec.Number s ∧ s.length ≤ 63 ∧ v = den s) 998 "-1.5e+2".toUTF8.toList (.num (den "-1.5e+2".toUTF8.toList)) := by
    unfold Val
    exact .inr (.inr (.inr (.inl ⟨_, ⟨hnum, by decide +kernel, rfl⟩, rfl⟩)))
  have h2 : Val (fun s v => Spec.Number s ∧ s.length ≤ 63 ∧ v = den s) 999 "{\"k\": -1.5e+2}".toUTF8.toList
      (.obj [("k".toUTF8.toList, .num (den "-1.5e+2".toUTF8.toList))]) := by
    unfold Val
    refine .inr (.inr (.inr (.inr (.inr (.inr (.inr (.inr ⟨[(([], "k".toUTF8.toList, "k".toUTF8.toList, []), [0x20], "-1.5e+2".toUTF8.toList, [], .num (den "-1.5e+2".toUTF8.toList))], by simp, ?_, ?_, rfl⟩)))))))
    · intro x hx
      rw [List.mem_singleton.mp hx]
      exact ⟨fun b hb => (by cases hb), hk, fun b hb => (by cases hb), fun b hb => .inl (List.mem_singleton.mp hb), h3, fun b hb => by cases hb⟩
    · simp only [List.map_cons, List.map_nil, commas]; decide +kernel
  have h1 : Val (fun s v => Spec.Number s ∧ s.length ≤ 63 ∧ v = den s) 999 "true".toUTF8.toList (.bool true) := by
    unfold Val
    exact .inr (.inr (.inl ⟨by decide +kernel, rfl⟩))
  unfold Val
  refine .inr (.inr (.inr (.inr (.inr (.inr (.inr (.inl ⟨[([], "{\"k\": -1.5e+2}".toUTF8.toList, [], _), ([0x20], "true".toUTF8.toList, [], _)], by simp, ?_, ?_, rfl⟩)))))))
  · intro x hx
    simp only [List.mem_cons, List.not_mem_nil, or_false] at hx
    rcases hx with rfl | rfl
    · exact ⟨fun b hb => (by cases hb), h2, fun b hb => by cases hb⟩
    · exact ⟨fun b hb => .inl (List.mem_singleton.mp hb), h1, fun b hb => by cases hb⟩
  · simp only [List.map_cons, List.map_nil, commas]; decide +kernel

/-- C63 is false for long numbers: only the first 63 characters are looked at. For a `strtod` that uses all it is given, an array holding a
number of 64 digits or more is refused. -/
theorem c63_long_number_counterexample {V : Type} (strtod : List UInt8 → Nat × V) (hd : ∀ s, (strtod s).1 = s.length) (n : Nat) (hn : 64 ≤ n) :
    parse strtod (0x5B :: List.replicate n 0x31 ++ [0x5D]) = .error .reject := by
  have htw : (0x5B :: List.replicate n 0x31 ++ [0x5D] : List UInt8).takeWhile (· ≠ 0) = 0x5B :: List.replicate n 0x31 ++ [0x5D] := by
    apply takeWhile_all
    intro b hb
    rcases List.mem_append.mp hb with hb | hb
    · rcases List.mem_cons.mp hb with rfl | hb
      · decide
      · rw [List.eq_of_mem_replicate hb]; decide
    · rw [List.mem_singleton.mp hb]; decide
  unfold parse parseLen
  rw [htw, if_neg (by simp)]
  generalize hbuf : (0x5B :: List.replicate n 0x31 ++ [0x5D] ++ [0] : List UInt8) = buf
  have h0 : buf.drop 0 = 0x5B :: (List.replicate n 0x31 ++ [0x5D, 0]) := by rw [← hbuf]; simp
  have hs := skip_start (buf := buf) (w := []) (fun b hb => by cases hb) (b := 0x5B) (by decide) (by decide) (by rw [← List.drop_zero (l := buf), h0]; rfl)
  rw [hs, List.length_nil, value_open h0 (.inl rfl)]
  show nested strtod buf (999 + 1) 0 0x5B = _
  rw [nested, if_pos rfl]
  have h1 := (drop_cons h0).2.2
  rw [Nat.zero_add] at h1
  obtain ⟨m, rfl⟩ : ∃ m, n = m + 64 := ⟨n - 64, by omega⟩
  have h1' : buf.drop 1 = [] ++ 0x31 :: (List.replicate (m + 63) 0x31 ++ [0x5D, 0]) := by
    rw [h1, show m + 64 = m + 63 + 1 from rfl, List.replicate_succ]; rfl
  have hlen : buf.length = m + 67 := by rw [← hbuf]; simp
  have hsk : skipWs buf 1 = 1 := skipWs_ws (fun b hb => by cases hb) (by decide) h1'
  have h64 : buf.drop (1 + 63) = 0x31 :: (List.replicate m 0x31 ++ [0x5D, 0]) := by
    rw [← List.drop_drop, h1, List.drop_append_of_le_length (by simp), List.drop_replicate, show m + 64 - 63 = m + 1 by omega, List.replicate_succ]; rfl
  have hsk2 : skipWs buf 64 = 64 := skipWs_ws (w := []) (fun b hb => by cases hb) (by decide) h64
  have hval : value strtod buf 999 1 = .ok (.num (strtod (List.replicate 63 0x31)).2, 64) := by
    have hb : buf.drop 1 = 0x31 :: (List.replicate (m + 63) 0x31 ++ [0x5D, 0]) := h1'
    rw [value_eq, word_ne hb _ _ (by decide), word_ne hb _ _ (by decide), word_ne hb _ _ (by decide), (drop_cons hb).1]
    dsimp only
    rw [if_neg (by decide), if_neg (by decide), if_neg (by decide), if_neg (by decide), if_pos (by decide)]
    have ht : ((buf.drop 1).take 63).takeWhile numChar = List.replicate 63 0x31 := by
      rw [h1, List.take_append_of_le_length (by simp), List.take_replicate, show min 63 (m + 64) = 63 by omega]
      apply takeWhile_all
      intro b hb
      rw [List.eq_of_mem_replicate hb]; decide
    unfold parseNumber
    dsimp only
    rw [ht, hd]
    simp only [List.length_replicate]
    rfl
  unfold array
  dsimp only
  rw [hsk, isAt_drop h1', if_neg (by decide), if_neg (by omega), elems]
  rw [show 1 - 1 + 1 = 1 from rfl, hsk, hval]
  dsimp only
  rw [hsk2, isAt_drop h64, isAt_drop h64, if_neg (by decide), if_neg (by decide)]

/-- Case: 64 digits. -/
example : parse (fun s => (s.length, s)) (0x5B :: List.replicate 64 0x31 ++ [0x5D]) = .error .reject :=
  c63_long_number_counterexample _ (fun _ => rfl) 64 (Nat.le_refl _)

end Verif.CJson
