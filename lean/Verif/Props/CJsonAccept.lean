import Verif.Proofs.CJsonLax
import Verif.Props.CJson
/-
What the JSON parser accepts, and what it makes of a text that is cut short.
-/
namespace Verif.CJson
open Spec (utf8 Scalar Hex4 commas)
open Lax (Blank Closed Literal Container)

theorem lax_first {V : Type} {conv : List UInt8 → Nat × V} {n : Nat} {s : List UInt8} {j : J V} (h : Lax.Val conv n s j) :
    ∃ b t, s = b :: t ∧ 32 < b ∧ b ≠ 0xEF ∧ (Container j ↔ b = 0x5B ∨ b = 0x7B) := by
  unfold Lax.Val at h
  rcases h with ⟨rfl, rfl⟩ | ⟨rfl, rfl⟩ | ⟨rfl, rfl⟩ | ⟨v, ⟨_, _, ⟨b, hb, hd⟩, _⟩, rfl⟩ | ⟨b, o, _, rfl, rfl⟩ | h
  · exact ⟨_, _, rfl, by decide, by decide, by simp [Container]⟩
  · exact ⟨_, _, rfl, by decide, by decide, by simp [Container]⟩
  · exact ⟨_, _, rfl, by decide, by decide, by simp [Container]⟩
  · cases s with
    | nil => cases hb
    | cons a t =>
      cases hb
      have := byte_all (p := fun b => (b = 0x2D ∨ b ∈ "0123456789".toUTF8.toList) → 32 < b ∧ b ≠ 0xEF ∧ ¬ (b = 0x5B ∨ b = 0x7B)) (by decide +kernel) _ hd
      exact ⟨_, t, rfl, this.1, this.2.1, ⟨fun h => h.elim, fun h => absurd h this.2.2⟩⟩
  · exact ⟨_, _, rfl, by decide, by decide, by simp [Container]⟩
  · cases n with
    | zero => exact h.elim
    | succ n =>
      rcases h with ⟨w, _, rfl, rfl⟩ | ⟨w, _, rfl, rfl⟩ | ⟨it, _, _, rfl, rfl⟩ | ⟨it, _, _, rfl, rfl⟩ <;>
        exact ⟨_, _, rfl, by decide, by decide, by simp [Container]⟩

theorem lax_last {V : Type} {conv : List UInt8 → Nat × V} {n : Nat} {s : List UInt8} {j : J V} (h : Lax.Val conv n s j) : s.getLast? ≠ some 0 := by
  unfold Lax.Val at h
  have e1 : ∀ (a z : UInt8) (t : List UInt8), z ≠ 0 → (a :: t ++ [z]).getLast? ≠ some 0 := by
    intro a z t hz; rw [List.getLast?_concat]; simpa using hz
  rcases h with ⟨rfl, rfl⟩ | ⟨rfl, rfl⟩ | ⟨rfl, rfl⟩ | ⟨v, ⟨_, hn, _⟩, rfl⟩ | ⟨b, o, _, rfl, rfl⟩ | h
  · decide
  · decide
  · decide
  · intro hl
    exact absurd (hn 0 (List.mem_of_getLast? hl)) (by decide +kernel)
  · exact e1 _ _ _ (by decide)
  · cases n with
    | zero => exact h.elim
    | succ n =>
      rcases h with ⟨w, _, rfl, rfl⟩ | ⟨w, _, rfl, rfl⟩ | ⟨it, _, _, rfl, rfl⟩ | ⟨it, _, _, rfl, rfl⟩ <;> exact e1 _ _ _ (by decide)

/-- C99. Whatever the parser accepts is, up to the first zero byte, an optional byte order mark, blanks, a value of the wider grammar and then
anything; the value returned is the one written there, and the end position reported is its end. `conv` is the C library's conversion of
numbers, of which only the law `Prefix` is used. Missing: that the text is JSON. See the counterexamples. -/
theorem c99_accepted_partial {V : Type} (conv : List UInt8 → Nat × V) (hp : Lax.Prefix conv) (text : List UInt8) (j : J V) (k : Nat)
    (h : parse conv text = .ok (j, k)) : Lax.Text conv text j k := by
  unfold parse parseLen at h
  generalize ht : text.takeWhile (· ≠ 0) = t at h
  rw [if_neg (by simp)] at h
  generalize hbuf : t ++ [0] = buf at h
  obtain ⟨s, hs, hat⟩ := value_sound hp buf 1000 _ _ _ h
  obtain ⟨w, hw, haw⟩ := skipWs_at buf (bom buf)
  have hpre : ∃ pre, (pre = [] ∨ pre = [0xEF, 0xBB, 0xBF]) ∧ At buf 0 pre (bom buf) := by
    unfold bom
    split
    · rename_i hb
      refine ⟨_, .inr rfl, ?_, rfl⟩
      rw [List.drop_zero, ← hb.2, List.take_append_drop]
    · exact ⟨_, .inl rfl, .nil ..⟩
  obtain ⟨pre, hpre, hap⟩ := hpre
  have hall := (hap.trans haw).trans hat
  obtain ⟨b, s', hs', _⟩ := lax_first hs
  have hne : buf.drop k ≠ [] := by
    intro he
    have h1 := hall.1
    rw [he, List.append_nil, List.drop_zero, ← hbuf] at h1
    have h2 := congrArg List.getLast? h1
    rw [List.getLast?_concat, List.getLast?_append] at h2
    cases hg : s.getLast? with
    | none => rw [List.getLast?_eq_none_iff, hs'] at hg; cases hg
    | some x =>
      rw [hg, Option.some_or] at h2
      rw [← h2] at hg
      exact lax_last hs hg
  have hd : buf.drop k = (buf.drop k).dropLast ++ [0] := by
    rw [← List.dropLast_concat_getLast hne]
    congr 1
    · simp
    · rw [List.getLast_drop]
      simp [← hbuf]
  refine ⟨pre, w, s, (buf.drop k).dropLast, ?_, hpre, hw, hs, ?_⟩
  · have h1 := hall.1
    rw [hd, List.drop_zero, ← List.append_assoc] at h1
    rw [ht]
    exact List.append_cancel_right (hbuf.trans h1)
  · have := hall.2
    simp only [List.length_append] at this
    omega

theorem parse_text {V : Type} {conv : List UInt8 → Nat × V} {text : List UInt8} {j : J V} {k : Nat} (hc : Container j) (h : Lax.Text conv text j k) :
    parse conv text = .ok (j, k) := by
  obtain ⟨pre, w, s, rest, ht, hpre, hw, hs, rfl⟩ := h
  obtain ⟨b, t, rfl, hb, hef, _⟩ := lax_first hs
  unfold parse parseLen
  rw [ht, if_neg (by simp)]
  have hbuf : pre ++ w ++ (b :: t) ++ rest ++ [0] = pre ++ (w ++ b :: (t ++ (rest ++ [0]))) := by simp
  rw [hbuf]
  generalize hB : pre ++ (w ++ b :: (t ++ (rest ++ [0]))) = buf
  have hbom : bom buf = pre.length := by
    unfold bom
    rcases hpre with rfl | rfl
    · rw [if_neg]
      · rfl
      · rintro ⟨_, he⟩
        rw [← hB] at he
        cases w with
        | nil => simp at he; exact hef he.1
        | cons a w =>
          simp at he
          have := hw a (List.mem_cons_self ..)
          rw [he.1] at this
          exact absurd this (by decide)
    · rw [if_pos]
      · rfl
      · rw [← hB]
        exact ⟨by simp; omega, by simp⟩
  have hd0 : buf.drop pre.length = w ++ b :: (t ++ (rest ++ [0])) := by rw [← hB, List.drop_left]
  have hsk := skipWs_ws hw hb hd0
  have hd1 : buf.drop (pre.length + w.length) = (b :: t) ++ (rest ++ [0]) := drop_append hd0
  rw [hbom, hsk]
  exact value_container hs hc hd1

/-- C99. For arrays and objects, which is what a configuration or a list of keys is, the wider grammar is exact: the parser returns the value
`j` ending at `k` if and only if that is what the text reads as in the grammar. In particular a text has at most one reading. -/
theorem c99_exact {V : Type} (conv : List UInt8 → Nat × V) (hp : Lax.Prefix conv) (text : List UInt8) (j : J V) (k : Nat) (hc : Container j) :
    parse conv text = .ok (j, k) ↔ Lax.Text conv text j k :=
  ⟨c99_accepted_partial conv hp text j k, parse_text hc⟩

theorem nz_takeWhile {l : List UInt8} (h : (0 : UInt8) ∉ l) : l.takeWhile (· ≠ 0) = l := by
  induction l with
  | nil => rfl
  | cons a l ih =>
    rw [List.takeWhile_cons, if_pos, ih (fun hm => h (List.mem_cons_of_mem _ hm))]
    simp only [decide_eq_true_eq]
    rintro rfl
    exact h (List.mem_cons_self ..)

theorem blank_split {w w' : List UInt8} {b b' : UInt8} {t t' : List UInt8} (hw : Blank w) (hw' : Blank w') (hb : 32 < b) (hb' : 32 < b')
    (h : w ++ b :: t = w' ++ b' :: t') : b = b' := by
  induction w generalizing w' with
  | nil =>
    cases w' with
    | nil => simp at h; exact h.1
    | cons a w' =>
      simp at h
      have := hw' a (List.mem_cons_self ..)
      rw [← h.1] at this
      exact absurd (UInt8.lt_of_lt_of_le hb this) (UInt8.lt_irrefl _)
  | cons a w ih =>
    cases w' with
    | nil =>
      simp at h
      have := hw a (List.mem_cons_self ..)
      rw [h.1] at this
      exact absurd (UInt8.lt_of_lt_of_le hb' this) (UInt8.lt_irrefl _)
    | cons a' w' =>
      simp only [List.cons_append, List.cons.injEq] at h
      exact ih (fun x hx => hw x (List.mem_cons_of_mem _ hx)) (fun x hx => hw' x (List.mem_cons_of_mem _ hx)) h.2

/-- The first byte behind mark and blanks is the same in both readings. -/
theorem same_first {p p' w w' : List UInt8} {b b' : UInt8} {t t' : List UInt8} (hp : p = [] ∨ p = [0xEF, 0xBB, 0xBF])
    (hp' : p' = [] ∨ p' = [0xEF, 0xBB, 0xBF]) (hw : Blank w) (hw' : Blank w') (hb : 32 < b) (hb' : 32 < b') (he : b ≠ 0xEF) (he' : b' ≠ 0xEF)
    (h : p ++ (w ++ b :: t) = p' ++ (w' ++ b' :: t')) : b = b' := by
  have no : ∀ {w : List UInt8} {b : UInt8} {t r : List UInt8}, Blank w → b ≠ 0xEF → w ++ b :: t ≠ 0xEF :: r := by
    intro w b t r hw he h
    cases w with
    | nil => simp at h; exact he h.1
    | cons a w =>
      simp at h
      have := hw a (List.mem_cons_self ..)
      rw [h.1] at this
      exact absurd this (by decide)
  rcases hp with rfl | rfl
  · rcases hp' with rfl | rfl
    · exact blank_split hw hw' hb hb' h
    · exact absurd h (no hw he)
  · rcases hp' with rfl | rfl
    · exact absurd h.symm (no hw' he')
    · exact blank_split hw hw' hb hb' (List.append_cancel_left h)

/-- C99. A configuration that was written only in part is refused: of an accepted array or object, no text that stops before its end is
accepted, wherever it stops; and every text that begins with it is read the same. -/
theorem c99_cut {V : Type} (conv : List UInt8 → Nat × V) (hp : Lax.Prefix conv) (text : List UInt8) (j : J V) (k : Nat) (hc : Container j)
    (hz : (0 : UInt8) ∉ text) (h : parse conv text = .ok (j, k)) :
    (∀ n, n < k → parse conv (text.take n) = .error .reject) ∧ (∀ more, (0 : UInt8) ∉ more → parse conv (text.take k ++ more) = .ok (j, k)) := by
  obtain ⟨pre, w, s, rest, ht, hpre, hw, hs, hk⟩ := c99_accepted_partial conv hp text j k h
  rw [nz_takeWhile hz] at ht
  constructor
  · intro n hn
    have hrej : ∀ x, parse conv (text.take n) = .error x → x = .reject := by
      unfold parse parseLen
      rw [if_neg (by simp)]
      exact (value_good conv (by rw [List.getLast?_concat]; decide) 1000 _).1
    cases hr : parse conv (text.take n) with
    | error x => rw [hrej x hr]
    | ok p =>
      exfalso
      obtain ⟨j', k'⟩ := p
      obtain ⟨pre', w', s', rest', ht', hpre', hw', hs', hk'⟩ := c99_accepted_partial conv hp _ j' k' hr
      have hz' : (0 : UInt8) ∉ text.take n := fun hm => hz (List.mem_of_mem_take hm)
      rw [nz_takeWhile hz'] at ht'
      have hsplit : text = pre' ++ w' ++ s' ++ (rest' ++ text.drop n) := by
        conv => lhs; rw [← List.take_append_drop n text, ht']
        simp
      obtain ⟨b, t, rfl, hb, hef, hcb⟩ := lax_first hs
      obtain ⟨b', t', rfl, hb', hef', hcb'⟩ := lax_first hs'
      have hbb : b = b' := by
        refine same_first (t := t ++ rest) (t' := t' ++ (rest' ++ text.drop n)) hpre hpre' hw hw' hb hb' hef hef' ?_
        have := ht.symm.trans hsplit
        simpa using this
      have hc' : Container j' := by rw [hcb', ← hbb, ← hcb]; exact hc
      have hfull : parse conv text = .ok (j', k') := by
        refine parse_text hc' ⟨pre', w', b' :: t', rest' ++ text.drop n, ?_, hpre', hw', hs', hk'⟩
        rw [nz_takeWhile hz]; exact hsplit
      rw [h] at hfull
      cases hfull
      have hlen := congrArg List.length ht'
      simp only [List.length_append, List.length_take] at hlen
      omega
  · intro more hm
    refine parse_text hc ⟨pre, w, s, more, ?_, hpre, hw, hs, hk⟩
    have htk : text.take k = pre ++ w ++ s := by
      rw [ht, hk, ← List.length_append, ← List.length_append, List.take_left]
    rw [htk, nz_takeWhile]
    intro hmem
    rcases List.mem_append.mp hmem with h' | h'
    · apply hz; rw [ht]; exact List.mem_append_left _ h'
    · exact hm h'

/-- A conversion that takes all the digits in front. -/
def digits (t : List UInt8) : Nat × List UInt8 :=
  let d := t.takeWhile (fun b => b ∈ "0123456789".toUTF8.toList)
  (d.length, d)

theorem digits_prefix : Lax.Prefix digits := by
  intro t
  refine ⟨(List.takeWhile_prefix _).length_le, ?_⟩
  unfold digits
  dsimp only
  have h : t.take (t.takeWhile (fun b => b ∈ "0123456789".toUTF8.toList)).length = t.takeWhile (fun b => b ∈ "0123456789".toUTF8.toList) :=
    (List.prefix_iff_eq_take.mp (List.takeWhile_prefix _)).symm
  rw [h, takeWhile_all _ _ (fun b hb => List.all_eq_true.mp List.all_takeWhile b hb)]

/-- Case of `c99_accepted_partial`, `c99_exact` and `c99_cut`: `{"a":[1]} x` with that conversion; the law holds, the text is accepted, the end is
behind the object, the text without its last brace is refused. -/
example : Lax.Prefix digits ∧ (match parse digits "{\"a\":[1]} x".toUTF8.toList with
    | .ok (.obj [([0x61], .arr [.num [0x31]])], 9) => true
    | _ => false) = true ∧ (0 : UInt8) ∉ "{\"a\":[1]} x".toUTF8.toList ∧
    (match parse digits ("{\"a\":[1]} x".toUTF8.toList.take 8) with | .error .reject => true | _ => false) = true :=
  ⟨digits_prefix, by decide +kernel, by decide +kernel, by decide +kernel⟩

/-- The reading of that text in the grammar, given explicitly: `c99_exact` is not vacuous. -/
example : Lax.Text digits "[1]".toUTF8.toList (.arr [.num [0x31]]) 3 := by
  refine ⟨[], [], "[1]".toUTF8.toList, [], by decide +kernel, .inl rfl, blank_nil, ?_, by decide +kernel⟩
  unfold Lax.Val
  refine .inr (.inr (.inr (.inr (.inr (.inr (.inr (.inl ⟨[([], [0x31], [], .num [0x31])], by simp, ?_, by decide +kernel, rfl⟩)))))))
  intro x hx
  rw [List.mem_singleton.mp hx]
  refine ⟨blank_nil, ?_, blank_nil⟩
  unfold Lax.Val
  exact .inr (.inr (.inr (.inl ⟨[0x31], ⟨by decide, by decide +kernel, ⟨0x31, rfl, .inr (by decide +kernel)⟩, by decide +kernel⟩, rfl⟩)))

theorem lax_one {V : Type} (conv : List UInt8 → Nat × V) {b o : List UInt8} (h : Literal b o) (hz : (0 : UInt8) ∉ b) (rest : List UInt8) :
    parse conv (0x5B :: 0x22 :: b ++ 0x22 :: 0x5D :: rest) = .ok (.arr [.str o], b.length + 4) := by
  refine parse_text trivial ⟨[], [], 0x5B :: 0x22 :: b ++ [0x22, 0x5D], rest.takeWhile (· ≠ 0), ?_, .inl rfl, blank_nil, ?_, by simp⟩
  · have e : (0x5B :: 0x22 :: b ++ 0x22 :: 0x5D :: rest : List UInt8) = (0x5B :: 0x22 :: b ++ [0x22, 0x5D]) ++ rest := by simp
    rw [e, List.takeWhile_append_of_pos]
    · simp
    · intro a ha
      simp only [List.cons_append, List.mem_cons, List.mem_append, List.not_mem_nil, or_false] at ha
      rw [decide_eq_true_eq]
      rcases ha with rfl | rfl | ha | rfl | rfl
      · decide
      · decide
      · rintro rfl; exact hz ha
      · decide
      · decide
  · unfold Lax.Val
    refine .inr (.inr (.inr (.inr (.inr (.inr (.inr (.inl ⟨[([], 0x22 :: b ++ [0x22], [], .str o)], by simp, ?_, by simp [commas], rfl⟩)))))))
    intro x hx
    rw [List.mem_singleton.mp hx]
    refine ⟨blank_nil, ?_, blank_nil⟩
    unfold Lax.Val
    exact .inr (.inr (.inr (.inr (.inl ⟨b, o, h, rfl, rfl⟩))))

theorem closed_plain {b : List UInt8} (h : ∀ x ∈ b, x ≠ 0x22 ∧ x ≠ 0x5C) : Closed b := by
  induction b with
  | nil => exact .nil
  | cons a b ih =>
    obtain ⟨h1, h2⟩ := h a (List.mem_cons_self ..)
    exact .plain a b h1 h2 (ih fun x hx => h x (List.mem_cons_of_mem _ hx))

theorem str_plain {b : List UInt8} (h : ∀ x ∈ b, x ≠ 0x5C) : Lax.Str b b := by
  induction b with
  | nil => exact .nil
  | cons a b ih => exact .cons [a] [a] b b (.raw a (h a (List.mem_cons_self ..))) (ih fun x hx => h x (List.mem_cons_of_mem _ hx))

/-- C99 is false: anything may follow the value. Whatever array or object the parser accepts, it accepts with any text behind it. -/
theorem c99_rest_counterexample {V : Type} (conv : List UInt8 → Nat × V) (hp : Lax.Prefix conv) (text : List UInt8) (j : J V) (hc : Container j)
    (hz : (0 : UInt8) ∉ text) (h : parse conv text = .ok (j, text.length)) (rest : List UInt8) (hr : (0 : UInt8) ∉ rest) :
    parse conv (text ++ rest) = .ok (j, text.length) := by
  have := (c99_cut conv hp text j _ hc hz h).2 rest hr
  rwa [List.take_length] at this

/-- Case: `[1]}}`. -/
example : (match parse digits "[1]}}".toUTF8.toList with | .ok (.arr [.num [0x31]], 3) => true | _ => false) = true := by decide +kernel

/-- C99 is false: strings are not checked. Every sequence of bytes without zero, quote and backslash is accepted as a string, with control
characters and with bytes that are not UTF-8. -/
theorem c99_bytes_counterexample {V : Type} (conv : List UInt8 → Nat × V) (b : List UInt8) (h : ∀ x ∈ b, x ≠ 0 ∧ x ≠ 0x22 ∧ x ≠ 0x5C) :
    parse conv (0x5B :: 0x22 :: b ++ [0x22, 0x5D]) = .ok (.arr [.str b], b.length + 4) :=
  lax_one conv ⟨closed_plain fun x hx => (h x hx).2, .inl (str_plain fun x hx => (h x hx).2.2)⟩ (fun hm => (h 0 hm).1 rfl) []

/-- Case: a line feed and a lone continuation byte. -/
example : ∀ x ∈ ([0x0A, 0x80] : List UInt8), x ≠ 0 ∧ x ≠ 0x22 ∧ x ≠ 0x5C := by decide

/-- C99 is false: four characters behind `\u` that are no hexadecimal number are accepted and stand for the byte 0, which ends the string for
every reader in C. -/
theorem c99_hex_counterexample {V : Type} (conv : List UInt8 → Nat × V) (a b c d : UInt8) (t : List UInt8)
    (h : ∀ x ∈ a :: b :: c :: d :: t, x ≠ 0 ∧ x ≠ 0x22 ∧ x ≠ 0x5C) (hn : ¬ ∃ v, Hex4 [a, b, c, d] v) :
    parse conv (0x5B :: 0x22 :: 0x5C :: 0x75 :: a :: b :: c :: d :: t ++ [0x22, 0x5D]) = .ok (.arr [.str (0 :: t)], t.length + 10) := by
  have hl : Literal (0x5C :: 0x75 :: a :: b :: c :: d :: t) (0 :: t) :=
    ⟨.esc _ _ (closed_plain fun x hx => (h x hx).2),
      .inl (.cons [0x5C, 0x75, a, b, c, d] [0] t t (.bad [a, b, c, d] rfl hn)
        (str_plain fun x hx => (h x (by simp only [List.mem_cons]; exact .inr (.inr (.inr (.inr hx))))).2.2))⟩
  refine lax_one conv hl ?_ []
  intro hm
  simp only [List.mem_cons] at hm
  rcases hm with hm | hm | hm
  · exact absurd hm (by decide)
  · exact absurd hm (by decide)
  · exact (h 0 (by simp only [List.mem_cons]; exact hm)).1 rfl

/-- Case: `["\u00G0x"]`. -/
example : ¬ ∃ v, Hex4 [0x30, 0x30, 0x47, 0x30] v := by
  rintro ⟨v, a, b, c, d, x, y, z, w, he, _, _, h3, _⟩
  cases he
  rw [show Spec.hexDigit 0x47 = none by decide +kernel] at h3
  cases h3

/-- C99 is false: the closing quote can be read as part of the string. Behind `\u` and three characters, the escape `\\` is taken apart: its first
half belongs to the four characters, its second half takes the closing quote with it. -/
theorem c99_quote_counterexample {V : Type} (conv : List UInt8 → Nat × V) (a b c : UInt8) (h : ∀ x ∈ [a, b, c], x ≠ 0 ∧ x ≠ 0x22 ∧ x ≠ 0x5C) :
    parse conv [0x5B, 0x22, 0x5C, 0x75, a, b, c, 0x5C, 0x5C, 0x22, 0x5D] = .ok (.arr [.str [0, 0x22]], 11) := by
  have hn : ¬ ∃ v, Hex4 [a, b, c, 0x5C] v := by
    rintro ⟨v, a, b, c, d, x, y, z, w, he, _, _, _, h4, _⟩
    cases he
    rw [show Spec.hexDigit 0x5C = none by decide +kernel] at h4
    cases h4
  have hA := h a (by simp)
  have hB := h b (by simp)
  have hC := h c (by simp)
  have hl : Literal [0x5C, 0x75, a, b, c, 0x5C, 0x5C] [0, 0x22] := by
    refine ⟨.esc _ _ (.plain _ _ hA.2.1 hA.2.2 (.plain _ _ hB.2.1 hB.2.2 (.plain _ _ hC.2.1 hC.2.2 (.esc _ _ .nil)))), .inr ?_⟩
    exact ⟨[0x5C, 0x75, a, b, c, 0x5C], [0], rfl, .cons [0x5C, 0x75, a, b, c, 0x5C] [0] [] [] (.bad [a, b, c, 0x5C] rfl hn) .nil, rfl⟩
  refine lax_one conv hl ?_ []
  intro hm
  simp only [List.mem_cons, List.not_mem_nil, or_false] at hm
  rcases hm with hm | hm | hm | hm | hm | hm | hm
  · exact absurd hm (by decide)
  · exact absurd hm (by decide)
  · exact hA.1 hm.symm
  · exact hB.1 hm.symm
  · exact hC.1 hm.symm
  · exact absurd hm (by decide)
  · exact absurd hm (by decide)

/-- Case: `["\u123\\"]`. -/
example : (match parse digits "[\"\\u123\\\\\"]".toUTF8.toList with | .ok (.arr [.str [0, 0x22]], 11) => true | _ => false) = true := by decide +kernel

end Verif.CJson
