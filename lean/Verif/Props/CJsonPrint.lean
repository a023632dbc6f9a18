import Verif.Proofs.CJsonPrintBack
import Verif.Props.CJsonAccept
/-
C115: a document printed as JSON text reads back as the same document. C116: printing into a buffer of the caller.
-/
namespace Verif.CJsonPrint
open Verif.CJson (J)
open Spec

theorem print_cases (e : Env) (he : Sane e.lib) (j : J Dbl) :
    (print e j = some (none, 0) ∧ (2147483647 < (text e.lib e.format 0 j).length + 2 ∨ ∃ k, e.ok k = false)) ∨
      print e j = some (some (text e.lib e.format 0 j ++ [0]), 1) := by
  unfold print
  by_cases h0 : e.ok 0 = true
  · rw [if_pos h0]
    have hat : At { e with noalloc := false } 0 1 0 [] ⟨some (resize [] 256 (e.junk 0)), 0, 0, 1, 1⟩ :=
      ⟨resize [] 256 (e.junk 0), rfl, .inr rfl, rfl, rfl, rfl, fun h => by cases h⟩
    have hp := printValue_ens (e := { e with noalloc := false }) he j 0 [] _ hat
    revert hp
    generalize printValue { e with noalloc := false } j ⟨some (resize [] 256 (e.junk 0)), 0, 0, 1, 1⟩ = r
    intro hp
    cases r with
    | fault => exact hp.elim
    | no b =>
      dsimp only
      obtain ⟨h1, _, h3⟩ := hp
      left
      rw [h1]
      refine ⟨rfl, ?_⟩
      rcases h3 with h3 | h3
      · left
        simpa using h3
      · right
        simpa using h3
    | yes b =>
      dsimp only
      obtain ⟨b', rest, g0, g1, g3, _, g5, _⟩ := update_exact hp (text_nz he _ j 0)
      rw [g0]
      dsimp only
      split
      · right
        rw [g1, g3, g5]
        simp only [List.nil_append, Option.map_some, resize]
        have h1 : (text e.lib e.format 0 j ++ 0 :: rest).take ((text e.lib e.format 0 j).length + 1) = text e.lib e.format 0 j ++ [0] := by
          rw [List.take_append, List.take_of_length_le (by omega), Nat.add_sub_cancel_left]; rfl
        have h2 : (text e.lib e.format 0 j).length + 1 - (text e.lib e.format 0 j ++ 0 :: rest).length = 0 := by
          simp only [List.length_append, List.length_cons]; omega
        rw [h1, h2]
        simp
      · rename_i hno
        left
        rw [release_some g1, g5]
        exact ⟨rfl, .inr ⟨b'.tries, by simpa using hno⟩⟩
  · rw [if_neg h0]
    exact .inl ⟨rfl, .inr ⟨0, by simpa using h0⟩⟩

/-- C115. Whatever the document, whichever allocations fail and whatever new memory holds: printing touches no memory outside its block, and it gives NULL
and holds nothing, or one block with exactly the text of the document and a zero byte. -/
theorem c115_print (e : Env) (he : Sane e.lib) (j : J Dbl) :
    (printFormatted e j = some (none, 0) ∨ printFormatted e j = some (some (text e.lib true 0 j ++ [0]), 1)) ∧
      (printUnformatted e j = some (none, 0) ∨ printUnformatted e j = some (some (text e.lib false 0 j ++ [0]), 1)) := by
  constructor
  · rcases print_cases { e with format := true } he j with h | h
    · exact .inl h.1
    · exact .inr h
  · rcases print_cases { e with format := false } he j with h | h
    · exact .inl h.1
    · exact .inr h

/-- C115. NULL comes only if memory runs out or the text is longer than the library can handle. -/
theorem c115_enough (e : Env) (he : Sane e.lib) (j : J Dbl) (hok : ∀ k, e.ok k = true) :
    ((text e.lib true 0 j).length + 2 ≤ 2147483647 → printFormatted e j = some (some (text e.lib true 0 j ++ [0]), 1)) ∧
      ((text e.lib false 0 j).length + 2 ≤ 2147483647 → printUnformatted e j = some (some (text e.lib false 0 j ++ [0]), 1)) := by
  constructor
  · intro hl
    rcases print_cases { e with format := true } he j with ⟨_, h | ⟨k, h⟩⟩ | h
    · exact absurd hl (by dsimp only at h; omega)
    · exact absurd (hok k) (by dsimp only at h; rw [h]; decide)
    · exact h
  · intro hl
    rcases print_cases { e with format := false } he j with ⟨_, h | ⟨k, h⟩⟩ | h
    · exact absurd hl (by dsimp only at h; omega)
    · exact absurd (hok k) (by dsimp only at h; rw [h]; decide)
    · exact h

/-- C115. The same with a block to begin with whose size the caller chooses: the text and its zero byte stand at the front of the block. -/
theorem c115_buffered (e : Env) (he : Sane e.lib) (pre : Int) (j : J Dbl) :
    (printBuffered e pre j = some (none, 0) ∧ (pre < 0 ∨ 2147483647 < (text e.lib e.format 0 j).length + 2 ∨ ∃ k, e.ok k = false)) ∨
      (0 ≤ pre ∧ ∃ rest, printBuffered e pre j = some (some (text e.lib e.format 0 j ++ 0 :: rest), 1)) := by
  unfold printBuffered
  by_cases hpre : pre < 0
  · rw [if_pos hpre]; exact .inl ⟨rfl, .inl hpre⟩
  rw [if_neg hpre]
  by_cases h0 : e.ok 0 = true
  · rw [if_pos h0]
    have hat : At { e with noalloc := false } 0 1 0 [] ⟨some (resize [] pre.toNat (e.junk 0)), 0, 0, 1, 1⟩ :=
      ⟨resize [] pre.toNat (e.junk 0), rfl, .inr rfl, rfl, rfl, rfl, fun h => by cases h⟩
    have hp := printValue_ens (e := { e with noalloc := false }) he j 0 [] _ hat
    revert hp
    generalize printValue { e with noalloc := false } j ⟨some (resize [] pre.toNat (e.junk 0)), 0, 0, 1, 1⟩ = r
    intro hp
    cases r with
    | fault => exact hp.elim
    | no b =>
      dsimp only
      obtain ⟨h1, _, h3⟩ := hp
      left
      rw [h1]
      refine ⟨rfl, .inr ?_⟩
      rcases h3 with h3 | h3
      · left
        simpa using h3
      · right
        simpa using h3
    | yes b =>
      dsimp only
      obtain ⟨rest, g1, _, _, g4, _⟩ := hp
      refine .inr ⟨by omega, rest, ?_⟩
      rw [g1, g4]
      rfl
  · rw [if_neg h0]
    exact .inl ⟨rfl, .inr (.inr ⟨0, by simpa using h0⟩)⟩

/-- C115. If the strings are UTF-8 without U+0000 and the library spells the numbers as JSON does, the text is a JSON text of the document. Missing: other
strings, and numbers that are not finite, which come out as `null`. -/
theorem c115_valid_partial (l : Lib) (fmt : Bool) (n : Nat) (j : J Dbl) (hw : CJson.Spec.Within n j)
    (hj : Each Utf8 (fun v => CJson.Spec.Number (number l v)) j) :
    CJson.Spec.Val (fun s v => CJson.Spec.Number s ∧ s = number l v) n (text l fmt 0 j) j := text_val hw hj 0

/-- C115. Integers of 32 bits are spelled as JSON does, whatever the library. -/
theorem c115_integer (l : Lib) (n : Int) (h1 : -2147483648 ≤ n) (h2 : n ≤ 2147483647) :
    number l (.fin n) = decimal n ∧ CJson.Spec.Number (decimal n) ∧ (decimal n).length ≤ 11 := by
  refine ⟨?_, ?_, decimal_len h1 h2⟩
  · unfold number
    dsimp only
    rw [if_pos]
    · rw [Rat.num_intCast]
    · rw [Rat.num_intCast, Rat.den_intCast]; exact ⟨rfl, h1, h2⟩
  · refine ⟨if n < 0 then [0x2D] else [], (Nat.toDigits 10 n.natAbs).map (fun c => UInt8.ofNat c.toNat), [], [], ?_, ?_, ⟨?_, ?_⟩, ?_, .inl rfl, .inl rfl⟩
    · simp [decimal]
    · split
      · exact .inr rfl
      · exact .inl rfl
    · simp
    · intro b hb
      obtain ⟨x, hx, rfl⟩ := List.mem_map.mp hb
      exact digit_code x hx
    · rw [← dec_digits]
      by_cases h0 : n.natAbs = 0
      · rw [h0]; exact .inl (by rw [dec]; rfl)
      · exact .inr (dec_head _ (by omega)).1

theorem parse_block {V : Type} {conv : List UInt8 → Nat × V} {s : List UInt8} {j : J V} (h : CJson.Lax.Val conv 1000 s j) (hz : (0 : UInt8) ∉ s) :
    CJson.parse conv (s ++ [0]) = .ok (j, s.length) := by
  have htw : (s ++ [0]).takeWhile (· ≠ 0) = s := by
    rw [List.takeWhile_append_of_pos]
    · simp
    · intro a ha
      rw [decide_eq_true_eq]
      rintro rfl
      exact hz ha
  obtain ⟨b, t, rfl, hb, hef, _⟩ := CJson.lax_first h
  unfold CJson.parse CJson.parseLen
  rw [htw, if_neg (by simp)]
  have hbom : CJson.bom (b :: t ++ [0]) = 0 := by
    unfold CJson.bom
    rw [if_neg]
    rintro ⟨_, he⟩
    simp at he
    exact hef he.1
  rw [hbom, CJson.skipWs_ws (w := []) CJson.blank_nil hb (by rfl)]
  have := CJson.value_complete (buf := b :: t ++ [0]) 1000 _ _ h 0 [0] (by simp) (CJson.stop_cons (by decide) _)
  simpa using this

/-- C115. A document nested at most 1000 deep, with strings without zero bytes and with numbers that the library reads back as they were, is read back as
it was: the block that either function returns parses to the same document, up to the end of the text. Missing: deeper nesting, zero bytes in strings and
numbers that the library does not give back, for which it fails (see below). -/
theorem c115_back_partial (e : Env) (he : Sane e.lib) (conv : List UInt8 → Nat × Dbl) (j : J Dbl) (hw : CJson.Spec.Within 1000 j)
    (hj : Each (fun s => (0 : UInt8) ∉ s) (fun v => CJson.Lax.Number conv (number e.lib v) v) j) (block : List UInt8) (n : Nat)
    (h : printFormatted e j = some (some block, n) ∨ printUnformatted e j = some (some block, n)) :
    CJson.parse conv block = .ok (j, block.length - 1) := by
  have key : ∀ fmt, block = text e.lib fmt 0 j ++ [0] → CJson.parse conv block = .ok (j, block.length - 1) := by
    rintro fmt rfl
    rw [parse_block (text_lax hw hj 0) (text_nz he fmt j 0)]
    simp
  rcases h with h | h
  · rcases (c115_print e he j).1 with h1 | h1
    · rw [h] at h1; cases h1
    · rw [h] at h1; cases h1; exact key true rfl
  · rcases (c115_print e he j).2 with h1 | h1
    · rw [h] at h1; cases h1
    · rw [h] at h1; cases h1; exact key false rfl

/-! Concrete cases. The library below spells every number that is not an integer `0.5` and reads anything back as one half. -/

/-- A library for the examples. -/
def half : Lib := ⟨0x2E, fun _ _ => "0.5".toUTF8.toList, fun _ => some (.fin (1 / 2))⟩

/-- A reader for the examples: `0.5` is one half, anything else is 12. -/
def readHalf (s : List UInt8) : Nat × Dbl := (s.length, if s = "0.5".toUTF8.toList then .fin (1 / 2) else .fin 12)

/-- Circumstances for the examples: memory never runs out and holds the byte 7 when it is new. -/
def calm : Env := ⟨half, false, false, fun _ => true, fun _ _ => 7⟩

/-- `{"a\n":[12,0.5,null,true],"é":{}}`. -/
def sample : J Dbl :=
  .obj [("a\n".toUTF8.toList, .arr [.num (.fin 12), .num (.fin (1 / 2)), .null, .bool true]), ("é".toUTF8.toList, .obj [])]

theorem half_sane : Sane half := by
  refine ⟨by decide +kernel, fun p q _ => ?_⟩
  show "0.5".toUTF8.toList ≠ [] ∧ "0.5".toUTF8.toList.length ≤ 25 ∧ (0 : UInt8) ∉ "0.5".toUTF8.toList
  decide +kernel

theorem sample_text : text half false 0 sample = "{\"a\\n\":[12,0.5,null,true],\"é\":{}}".toUTF8.toList ∧
    text half true 0 sample = "{\n\t\"a\\n\":\t[12, 0.5, null, true],\n\t\"é\":\t{\n\t}\n}".toUTF8.toList := by decide +kernel

/-- The hypotheses of `c115_print`, `c115_enough` and `c115_buffered` hold for the sample. -/
example : printUnformatted calm sample = some (some ("{\"a\\n\":[12,0.5,null,true],\"é\":{}}".toUTF8.toList ++ [0]), 1) := by
  have := (c115_enough calm half_sane sample (fun _ => rfl)).2 (by show (text half false 0 sample).length + 2 ≤ _; rw [sample_text.1]; decide +kernel)
  rw [this]
  show some (some (text half false 0 sample ++ [0]), 1) = _
  rw [sample_text.1]

theorem sample_within (n : Nat) : CJson.Spec.Within (n + 2) sample := by
  refine .obj _ _ (fun x hx => ?_)
  simp only [List.mem_cons, List.not_mem_nil, or_false] at hx
  rcases hx with rfl | rfl
  · refine .arr _ _ (fun x hx => ?_)
    simp only [List.mem_cons, List.not_mem_nil, or_false] at hx
    rcases hx with rfl | rfl | rfl | rfl
    · exact .num _ _
    · exact .num _ _
    · exact .null _
    · exact .bool _ _
  · exact .obj _ _ (fun x hx => by cases hx)

theorem sample_each {P : List UInt8 → Prop} {Q : Dbl → Prop} (h1 : P "a\n".toUTF8.toList) (h2 : P "é".toUTF8.toList) (h3 : Q (.fin 12)) (h4 : Q (.fin (1 / 2))) :
    Each P Q sample := by
  refine .obj _ (fun x hx => ?_) (fun x hx => ?_)
  · simp only [List.mem_cons, List.not_mem_nil, or_false] at hx
    rcases hx with rfl | rfl
    · exact h1
    · exact h2
  · simp only [List.mem_cons, List.not_mem_nil, or_false] at hx
    rcases hx with rfl | rfl
    · refine .arr _ (fun x hx => ?_)
      simp only [List.mem_cons, List.not_mem_nil, or_false] at hx
      rcases hx with rfl | rfl | rfl | rfl
      · exact .num _ h3
      · exact .num _ h4
      · exact .null
      · exact .bool _
    · exact .obj _ (fun x hx => by cases hx) (fun x hx => by cases hx)

/-- The hypotheses of `c115_back_partial` hold for the sample. -/
example : CJson.Spec.Within 1000 sample ∧ Each (fun s => (0 : UInt8) ∉ s) (fun v => CJson.Lax.Number readHalf (number half v) v) sample := by
  refine ⟨sample_within 998, sample_each (by decide +kernel) (by decide +kernel) ?_ ?_⟩
  · have hn : number half (.fin 12) = "12".toUTF8.toList := by decide +kernel
    rw [hn]
    exact ⟨by decide +kernel, by decide +kernel, ⟨0x31, by decide +kernel, .inr (by decide +kernel)⟩, by decide +kernel⟩
  · have hn : number half (.fin (1 / 2)) = "0.5".toUTF8.toList := by decide +kernel
    rw [hn]
    exact ⟨by decide +kernel, by decide +kernel, ⟨0x30, by decide +kernel, .inr (by decide +kernel)⟩, by decide +kernel⟩

/-- The hypotheses of `c115_valid_partial` hold for the sample. -/
example : CJson.Spec.Within 2 sample ∧ Each Utf8 (fun v => CJson.Spec.Number (number half v)) sample := by
  refine ⟨sample_within 0, sample_each ⟨[0x61, 10], ?_, by decide +kernel⟩ ⟨[0xE9], ?_, by decide +kernel⟩ ?_ ?_⟩
  · intro c hc
    simp only [List.mem_cons, List.not_mem_nil, or_false] at hc
    rcases hc with rfl | rfl
    · exact ⟨.inl (by decide), by decide⟩
    · exact ⟨.inl (by decide), by decide⟩
  · intro c hc
    rw [List.mem_singleton.mp hc]
    exact ⟨.inl (by decide), by decide⟩
  · have := c115_integer half 12 (by decide) (by decide)
    show CJson.Spec.Number (number half (.fin ((12 : Int) : Rat)))
    rw [this.1]; exact this.2.1
  · have hn : number half (.fin (1 / 2)) = "0.5".toUTF8.toList := by decide +kernel
    rw [hn]
    exact ⟨[], [0x30], [0x2E, 0x35], [], by decide +kernel, .inl rfl, ⟨by decide, by decide +kernel⟩, .inl rfl, .inr ⟨[0x35], ⟨by decide, by decide +kernel⟩, rfl⟩, .inl rfl⟩

/-- `c115_integer` for the smallest integer. -/
example : number half (.fin (-2147483648)) = "-2147483648".toUTF8.toList := by decide +kernel

/-- C115 fails for strings with zero bytes: the text ends there, and what is read back is the part in front. -/
theorem c115_zero_counterexample (e : Env) (he : Sane e.lib) (conv : List UInt8 → Nat × Dbl) (a c : List UInt8) (ha : (0 : UInt8) ∉ a) (block : List UInt8) (n : Nat)
    (h : printUnformatted e (.str (a ++ 0 :: c)) = some (some block, n)) : CJson.parse conv block = .ok (.str a, block.length - 1) ∧ a ≠ a ++ 0 :: c := by
  refine ⟨?_, by simp⟩
  rcases (c115_print e he (.str (a ++ 0 :: c))).2 with h1 | h1
  · rw [h] at h1; cases h1
  · rw [h] at h1
    cases h1
    have hq : text e.lib false 0 (.str (a ++ 0 :: c)) = text e.lib false 0 (.str a) := by
      rw [text, text]
      unfold quoted
      rw [cut_id ha]
      congr 3
      rw [List.takeWhile_append_of_pos]
      · simp
      · intro x hx
        rw [decide_eq_true_eq]
        rintro rfl
        exact ha hx
    rw [hq, parse_block (text_lax (.str _ _) (.str _ ha) 0) (text_nz he false _ 0)]
    simp

/-- The hypotheses of `c115_zero_counterexample` hold for the string `a`, zero, `b`. -/
example : (0 : UInt8) ∉ [0x61] ∧ ∃ block n, printUnformatted calm (.str ([0x61] ++ 0 :: [0x62])) = some (some block, n) :=
  ⟨by decide, _, _, (c115_enough calm half_sane _ (fun _ => rfl)).2 (by decide +kernel)⟩

/-- C115 fails for what is not finite: it is read back as `null`. -/
theorem c115_infinite_counterexample (e : Env) (he : Sane e.lib) (conv : List UInt8 → Nat × Dbl) (v : Dbl) (hv : ∀ q, v ≠ .fin q) (block : List UInt8) (n : Nat)
    (h : printUnformatted e (.num v) = some (some block, n)) : CJson.parse conv block = .ok (.null, block.length - 1) := by
  rcases (c115_print e he (.num v)).2 with h1 | h1
  · rw [h] at h1; cases h1
  · rw [h] at h1
    cases h1
    have hq : text e.lib false 0 (.num v) = text e.lib false 0 .null := by
      rw [text, text]
      cases v with
      | fin q => exact absurd rfl (hv q)
      | inf s => rfl
      | nan => rfl
    rw [hq, parse_block (text_lax (.null _) .null 0) (text_nz he false _ 0)]
    simp

/-- The hypotheses of `c115_infinite_counterexample` hold for an infinity. -/
example : (∀ q, Dbl.inf true ≠ .fin q) ∧ ∃ block n, printUnformatted calm (.num (.inf true)) = some (some block, n) :=
  ⟨fun q h => (by cases h), _, _, (c115_enough calm half_sane _ (fun _ => rfl)).2 (by decide +kernel)⟩

theorem near_back (e : Env) (he : Sane e.lib) (conv : List UInt8 → Nat × Dbl) (q : Rat) (t : Dbl) (hq : ¬ (q.den = 1 ∧ -2147483648 ≤ q.num ∧ q.num ≤ 2147483647))
    (hs : e.lib.scan (e.lib.g 15 q) = some t) (hn : near t q = true)
    (hc : CJson.Lax.Number conv ((e.lib.g 15 q).map fun c => if c = e.lib.point then 0x2E else c) t) (block : List UInt8) (n : Nat)
    (h : printUnformatted e (.num (.fin q)) = some (some block, n)) : CJson.parse conv block = .ok (.num t, block.length - 1) := by
  rcases (c115_print e he (.num (.fin q))).2 with h1 | h1
  · rw [h] at h1; cases h1
  · rw [h] at h1
    cases h1
    have ht : text e.lib false 0 (.num (.fin q)) = (e.lib.g 15 q).map fun c => if c = e.lib.point then 0x2E else c := by
      rw [text]
      unfold number
      dsimp only
      rw [if_neg hq, hs]
      dsimp only
      rw [if_pos hn]
    have hv : CJson.Lax.Val conv 1000 (text e.lib false 0 (.num (.fin q))) (.num t) := by
      unfold CJson.Lax.Val
      rw [ht]
      exact .inr (.inr (.inr (.inl ⟨t, hc, rfl⟩)))
    rw [parse_block hv (text_nz he false _ 0)]
    simp

/-- C115 fails for numbers whose 15 digits are read back as the next number of the format: `m · u` and `(m + 1) · u` with `m` of 53 bits count as the same. -/
theorem c115_neighbour_counterexample (e : Env) (he : Sane e.lib) (conv : List UInt8 → Nat × Dbl) (m : Int) (u : Rat) (hu : 0 < u) (hm : 4503599627370496 ≤ m)
    (hq : ¬ ((m * u).den = 1 ∧ -2147483648 ≤ (m * u).num ∧ (m * u).num ≤ 2147483647)) (hs : e.lib.scan (e.lib.g 15 (m * u)) = some (.fin ((m + 1) * u)))
    (hc : CJson.Lax.Number conv ((e.lib.g 15 (m * u)).map fun c => if c = e.lib.point then 0x2E else c) (.fin ((m + 1) * u))) (block : List UInt8) (n : Nat)
    (h : printUnformatted e (.num (.fin (m * u))) = some (some block, n)) :
    CJson.parse conv block = .ok (.num (.fin ((m + 1) * u)), block.length - 1) ∧ (m + 1) * u ≠ m * u := by
  refine ⟨near_back e he conv _ _ hq hs ?_ hc block n h, by grind⟩
  have hmr : (4503599627370496 : Rat) ≤ (m : Rat) := by
    have : ((4503599627370496 : Int) : Rat) ≤ (m : Rat) := Rat.intCast_le_intCast.mpr hm
    exact this
  have h1 : ((m + 1) * u - m * u : Rat) = u := by grind
  have h2 : (4503599627370496 * u : Rat) ≤ m * u := Rat.mul_le_mul_of_nonneg_right hmr (Rat.le_of_lt hu)
  have h3 : (0 : Rat) ≤ (m + 1) * u := by grind
  unfold near
  rw [decide_eq_true_eq, h1, Rat.abs_of_nonneg (Rat.le_of_lt hu), Rat.abs_of_nonneg h3]
  left
  grind

/-- The hypotheses of `c115_neighbour_counterexample` hold for 0.29999999999999993 and a library that spells it with 15 digits as `0.3`. -/
example : let q : Rat := ((5404319552844594 : Int) : Rat) * (1 / 18014398509481984)
    let t : Rat := (((5404319552844594 : Int) : Rat) + 1) * (1 / 18014398509481984)
    let l : Lib := ⟨0x2E, fun _ _ => "0.3".toUTF8.toList, fun _ => some (.fin t)⟩
    Sane l ∧ ¬ (q.den = 1 ∧ -2147483648 ≤ q.num ∧ q.num ≤ 2147483647) ∧ l.scan (l.g 15 q) = some (.fin t) ∧
      CJson.Lax.Number (fun s => (s.length, Dbl.fin t)) ((l.g 15 q).map fun c => if c = l.point then 0x2E else c) (Dbl.fin t) := by
  refine ⟨⟨by decide +kernel, fun p q _ => ?_⟩, by decide +kernel, rfl, by decide +kernel, by decide +kernel, ⟨0x30, by decide +kernel, .inr (by decide +kernel)⟩, rfl⟩
  show "0.3".toUTF8.toList ≠ [] ∧ "0.3".toUTF8.toList.length ≤ 25 ∧ (0 : UInt8) ∉ "0.3".toUTF8.toList
  decide +kernel

/-- C115 fails for finite numbers whose 15 digits are read back as an infinity: the infinity counts as the same number. -/
theorem c115_overflow_counterexample (e : Env) (he : Sane e.lib) (conv : List UInt8 → Nat × Dbl) (q : Rat) (s : Bool)
    (hq : ¬ (q.den = 1 ∧ -2147483648 ≤ q.num ∧ q.num ≤ 2147483647)) (hs : e.lib.scan (e.lib.g 15 q) = some (.inf s))
    (hc : CJson.Lax.Number conv ((e.lib.g 15 q).map fun c => if c = e.lib.point then 0x2E else c) (.inf s)) (block : List UInt8) (n : Nat)
    (h : printUnformatted e (.num (.fin q)) = some (some block, n)) : CJson.parse conv block = .ok (.num (.inf s), block.length - 1) :=
  near_back e he conv q (.inf s) hq hs rfl hc block n h

/-- The hypotheses of `c115_overflow_counterexample` hold for the largest finite number and a library that spells it with 15 digits as a larger one. -/
example : let q : Rat := 9007199254740991 * 2 ^ 971
    let l : Lib := ⟨0x2E, fun _ _ => "1.79769313486232e+308".toUTF8.toList, fun _ => some (.inf false)⟩
    Sane l ∧ ¬ (q.den = 1 ∧ -2147483648 ≤ q.num ∧ q.num ≤ 2147483647) ∧ l.scan (l.g 15 q) = some (.inf false) ∧
      CJson.Lax.Number (fun s => (s.length, Dbl.inf false)) ((l.g 15 q).map fun c => if c = l.point then 0x2E else c) (Dbl.inf false) := by
  refine ⟨⟨by decide +kernel, fun p q _ => ?_⟩, by decide +kernel, rfl, by decide +kernel, by decide +kernel, ⟨0x31, by decide +kernel, .inr (by decide +kernel)⟩, rfl⟩
  show "1.79769313486232e+308".toUTF8.toList ≠ [] ∧ "1.79769313486232e+308".toUTF8.toList.length ≤ 25 ∧ (0 : UInt8) ∉ "1.79769313486232e+308".toUTF8.toList
  decide +kernel

/-- C115 fails for a document nested more than 1000 deep: it is printed like any other, but no text at all is read as it. -/
theorem c115_deep_counterexample (e : Env) (he : Sane e.lib) (conv : List UInt8 → Nat × Dbl) (j : J Dbl) (hj : ¬ CJson.Spec.Within 1000 j) (hok : ∀ k, e.ok k = true)
    (hl : (text e.lib false 0 j).length + 2 ≤ 2147483647) :
    printUnformatted e j = some (some (text e.lib false 0 j ++ [0]), 1) ∧ ∀ block k, CJson.parse conv block ≠ .ok (j, k) :=
  ⟨(c115_enough e he j hok).2 hl, fun _ k h => hj (CJson.c50_depth conv _ j k h)⟩

/-- `n` arrays, one in the other. -/
def nest : Nat → J Dbl
  | 0 => .null
  | n + 1 => .arr [nest n]

theorem nest_within (n m : Nat) (h : CJson.Spec.Within m (nest n)) : n ≤ m := by
  induction n generalizing m with
  | zero => omega
  | succ n ih =>
    rw [nest] at h
    cases h with
    | arr m xs h => have := ih m (h _ (List.mem_cons_self ..)); omega

theorem nest_length (l : Lib) (n d : Nat) : (text l false d (nest n)).length = 2 * n + 4 := by
  induction n generalizing d with
  | zero => rw [nest, text]; rfl
  | succ n ih =>
    rw [nest, text, elems, elems]
    simp [ih]
    omega

/-- The hypotheses of `c115_deep_counterexample` hold for 1001 arrays, one in the other. -/
example : ¬ CJson.Spec.Within 1000 (nest 1001) ∧ (text half false 0 (nest 1001)).length + 2 ≤ 2147483647 :=
  ⟨fun h => absurd (nest_within _ _ h) (by decide), by rw [nest_length]; decide⟩

/-- C116. Printing into the caller's buffer: no byte outside it is touched, it says yes exactly if the buffer has two bytes more than the text has, and then
the buffer begins with the text and a zero byte. -/
theorem c116_preallocated (e : Env) (he : Sane e.lib) (buf : List UInt8) (hb : buf.length ≤ 2147483647) (j : J Dbl) :
    ∃ r buf', printPreallocated e buf j = some (r, buf') ∧ buf'.length = buf.length ∧ (r = true ↔ (text e.lib e.format 0 j).length + 2 ≤ buf.length) ∧
      (r = true → (text e.lib e.format 0 j ++ [0]) <+: buf') := by
  unfold printPreallocated
  have hat : At { e with noalloc := true } buf.length 0 0 [] ⟨some buf, 0, 0, 0, 0⟩ := ⟨buf, rfl, .inr rfl, rfl, rfl, rfl, fun _ => rfl⟩
  have hp := printValue_ens (e := { e with noalloc := true }) he j 0 [] _ hat
  revert hp
  generalize printValue { e with noalloc := true } j ⟨some buf, 0, 0, 0, 0⟩ = r
  intro hp
  cases r with
  | fault => exact hp.elim
  | no b =>
    obtain ⟨_, h2, h3⟩ := hp
    obtain ⟨m, hm, hml⟩ := h2 rfl
    refine ⟨false, m, by simp [hm], hml, ?_, fun h => by cases h⟩
    refine ⟨fun h => absurd h (by decide), fun h => ?_⟩
    rw [if_pos rfl] at h3
    simp only [List.length_nil, Nat.zero_add] at h3
    omega
  | yes b =>
    obtain ⟨rest, g1, _, _, _, g5, g6⟩ := hp
    refine ⟨true, text e.lib e.format 0 j ++ 0 :: rest, by simp [g1], by simpa using g5 rfl, ⟨fun _ => by simpa using g6 rfl, fun _ => rfl⟩, fun _ => ⟨rest, by simp⟩⟩

/-- `c116_preallocated` for `true`: a buffer of six bytes is enough, whatever was in it. -/
example (a b c d x y : UInt8) : printPreallocated calm [a, b, c, d, x, y] (.bool true) = some (true, [0x74, 0x72, 0x75, 0x65, 0, y]) := rfl

/-- C116 does not hold with the room that the text and its zero byte take: a buffer of exactly that size is refused. -/
theorem c116_exact_counterexample (e : Env) (he : Sane e.lib) (buf : List UInt8) (hb : buf.length ≤ 2147483647) (j : J Dbl)
    (hl : buf.length = (text e.lib e.format 0 j).length + 1) : ∃ buf', printPreallocated e buf j = some (false, buf') := by
  obtain ⟨r, buf', h1, _, h2, _⟩ := c116_preallocated e he buf hb j
  cases r with
  | false => exact ⟨buf', h1⟩
  | true => exact absurd (h2.mp rfl) (by omega)

/-- `c116_exact_counterexample` for `true`: five bytes would hold it. -/
example : printPreallocated calm [1, 2, 3, 4, 5] (.bool true) = some (false, [1, 2, 3, 4, 5]) := rfl

end Verif.CJsonPrint
