import Verif.Proofs.CJsonMinifyText
/-
C117: minifying a JSON text keeps the document.
-/
namespace Verif.CJsonMinify
open Spec CJson.Spec

theorem line_split (R : List UInt8) : ∃ t, R = t ++ line R := by
  fun_induction line R with
  | case1 => exact ⟨[], rfl⟩
  | case2 => exact ⟨[], rfl⟩
  | case3 => exact ⟨[_], rfl⟩
  | case4 c r h0 h1 ih => obtain ⟨t, ht⟩ := ih; exact ⟨c :: t, by rw [List.cons_append, ← ht]⟩

theorem block_split (R : List UInt8) : ∃ t, R = t ++ block R := by
  fun_induction block R
  · exact ⟨[], rfl⟩
  · exact ⟨[], rfl⟩
  · exact ⟨[_], rfl⟩
  · exact ⟨[_, _], rfl⟩
  · rename_i ih; obtain ⟨t, ht⟩ := ih; exact ⟨_ :: t, by rw [List.cons_append, ← ht]⟩
  · rename_i ih; obtain ⟨t, ht⟩ := ih; exact ⟨_ :: t, by rw [List.cons_append, ← ht]⟩

theorem str_split (R : List UInt8) : R = (str R).1 ++ (str R).2 := by
  fun_induction str R
  · rfl
  · rfl
  · rfl
  · rfl
  · rename_i ih; exact congrArg (_ :: _ :: ·) ih
  · rename_i ih; exact congrArg (_ :: ·) ih
  · rename_i ih; exact congrArg (_ :: ·) ih

theorem before {R R' t : List UInt8} (h : R = t ++ R') (hd : R'.dropWhile (· ≠ 0) = R.dropWhile (· ≠ 0)) :
    R.takeWhile (· ≠ 0) = t ++ R'.takeWhile (· ≠ 0) := by
  have h1 := List.takeWhile_append_dropWhile (p := fun x : UInt8 => decide (x ≠ 0)) (l := R)
  have h2 := List.takeWhile_append_dropWhile (p := fun x : UInt8 => decide (x ≠ 0)) (l := R')
  rw [← hd] at h1
  conv at h1 => rhs; rw [h, ← h2, ← List.append_assoc]
  exact List.append_cancel_right h1

/-- What is kept are bytes of the text in their order. -/
theorem mini_sub (R : List UInt8) : List.Sublist (mini R) (R.takeWhile (· ≠ 0)) := by
  fun_induction mini R with
  | case1 => exact .slnil
  | case2 => exact List.nil_sublist _
  | case3 c r h0 hw ih => rw [List.takeWhile_cons_of_pos (by simpa using h0)]; exact ih.trans (List.sublist_cons_self _ _)
  | case4 => exact List.nil_sublist _
  | case5 r _ _ _ ih =>
    obtain ⟨t, ht⟩ := line_split r
    rw [before (t := 0x2F :: 0x2F :: t) (R' := line r) (by rw [List.cons_append, List.cons_append, ← ht]) (by rw [line_drop]; simp)]
    exact ih.trans (List.sublist_append_right _ _)
  | case6 r _ _ _ _ ih =>
    obtain ⟨t, ht⟩ := block_split r
    rw [before (t := 0x2F :: 0x2A :: t) (R' := block r) (by rw [List.cons_append, List.cons_append, ← ht]) (by rw [block_drop]; simp)]
    exact ih.trans (List.sublist_append_right _ _)
  | case7 d r _ _ _ _ ih => rw [List.takeWhile_cons_of_pos (by decide)]; exact ih.trans (List.sublist_cons_self _ _)
  | case8 r _ _ _ _ ih =>
    rw [before (t := 0x22 :: (str r).1) (R' := (str r).2) (by rw [List.cons_append, ← str_split]) (by rw [str_drop]; simp)]
    exact List.Sublist.append (List.Sublist.refl _) ih
  | case9 c r h0 _ _ _ ih => rw [List.takeWhile_cons_of_pos (by simpa using h0)]; exact ih.cons_cons c

/-- C117. Whatever the text, its block is not left: the kept text, its zero byte, and behind the zero byte of the original nothing is changed. What is kept are bytes of the text
in their order. -/
theorem c117_memory (text post : List UInt8) (hz : 0 ∉ text) :
    ∃ kept m', minify (text ++ 0 :: post) = some m' ∧ m'.length = (text ++ 0 :: post).length ∧ (kept ++ [0]) <+: m' ∧ post <:+ m' ∧ List.Sublist kept text := by
  obtain ⟨m', h1, h2, h3, h4⟩ := minify_at text post hz
  refine ⟨_, m', h1, h2, h3, h4, ?_⟩
  have := mini_sub (text ++ 0 :: post)
  rw [List.takeWhile_append_of_pos (by intro a ha; simpa using fun h : a = 0 => hz (h ▸ ha))] at this
  simpa using this

/-- Case: a text with a comment, and a byte behind it. -/
example : minify [0x31, 0x2F, 0x2F, 0x20, 10, 0x2C, 0, 7] = some [0x31, 0x2C, 0, 0x20, 10, 0x2C, 0, 7] := by decide +kernel

theorem strip_strip : ∀ (n : Nat) (s : List UInt8), s.length ≤ n →
    strip (strip s) = strip s ∧ within (within s) = within s ∧ escaped (escaped s) = escaped s := by
  intro n
  induction n with
  | zero => intro s h; cases s with | nil => simp [strip, within, escaped] | cons => simp at h
  | succ n ih =>
    intro s h
    cases s with
    | nil => simp [strip, within, escaped]
    | cons c r =>
      obtain ⟨i1, i2, i3⟩ := ih r (by simpa using h)
      refine ⟨?_, ?_, ?_⟩
      · rw [strip]
        split
        · next hq => rw [strip, if_pos hq, i2]
        · split
          · exact i1
          · next hq hw => rw [strip, if_neg hq, if_neg hw, i1]
      · rw [within]
        split
        · next hq => rw [within, if_pos hq, i3]
        · split
          · next hb hq => rw [within, if_neg hb, if_pos hq, i1]
          · next hb hq => rw [within, if_neg hb, if_neg hq, i2]
      · rw [escaped, escaped, i2]

theorem line_end (s r : List UInt8) (h : ∀ c ∈ s, c ≠ 10 ∧ c ≠ 0) : line (s ++ 10 :: r) = r := by
  induction s with
  | nil => rw [List.nil_append, line]; simp
  | cons c s ih => rw [List.cons_append, line, if_neg (h c (by simp)).2, if_neg (h c (by simp)).1, ih (fun x hx => h x (by simp [hx]))]

theorem block_end (s r : List UInt8) (h0 : 0 ∉ s) (h : ∀ a b, s ++ [0x2A] ≠ a ++ 0x2A :: 0x2F :: b) : block (s ++ 0x2A :: 0x2F :: r) = r := by
  induction s with
  | nil => rw [List.nil_append, block.eq_def]; simp
  | cons c s ih =>
    have ih := ih (fun hx => h0 (by simp [hx])) (fun a b e => h (c :: a) b (by rw [List.cons_append, e]; rfl))
    have hc : c ≠ 0 := fun e => h0 (by simp [e])
    rw [List.cons_append, block.eq_def]
    dsimp only
    rw [if_neg hc]
    split
    · next hs =>
      subst hs
      cases s with
      | nil => rw [List.nil_append] at ih ⊢; simp only; rw [if_neg (by decide)]; exact ih
      | cons d s =>
        rw [List.cons_append] at ih ⊢
        simp only
        rw [if_neg]
        · exact ih
        · intro hd; exact h [] (s ++ [0x2A]) (by rw [hd]; rfl)
    · exact ih

theorem mini_gap {g : List UInt8} (h : Gap g) (rest : List UInt8) : mini (g ++ rest) = mini rest := by
  induction h with
  | nil => rfl
  | blank c s hc hs ih =>
    rw [List.cons_append, mini.eq_def]
    dsimp only
    simp only [List.mem_cons, List.not_mem_nil, or_false] at hc
    rw [if_neg (by rintro rfl; simp at hc), if_pos (by rcases hc with h | h | h | h <;> simp [h]), ih]
  | comment c s hc hs ih =>
    rw [List.append_assoc]
    cases hc with
    | line t ht =>
      have he : 0x2F :: 0x2F :: t ++ [10] ++ (s ++ rest) = 0x2F :: 0x2F :: (t ++ 10 :: (s ++ rest)) := by simp
      rw [he, mini.eq_def]
      dsimp only
      rw [if_neg (by decide), if_neg (by decide), if_pos rfl, if_pos rfl, line_end _ _ ht, ih]
    | block t h0 ht =>
      have he : 0x2F :: 0x2A :: t ++ [0x2A, 0x2F] ++ (s ++ rest) = 0x2F :: 0x2A :: (t ++ 0x2A :: 0x2F :: (s ++ rest)) := by simp
      rw [he, mini.eq_def]
      dsimp only
      rw [if_neg (by decide), if_neg (by decide), if_pos rfl, if_neg (by decide), if_pos rfl, block_end _ _ h0 ht, ih]

theorem gap_nz {g : List UInt8} (h : Gap g) : 0 ∉ g := by
  induction h with
  | nil => simp
  | blank c s hc hs ih => simp only [List.mem_cons, not_or]; exact ⟨by rintro rfl; simp at hc, ih⟩
  | comment c s hc hs ih =>
    rw [List.mem_append, not_or]
    refine ⟨?_, ih⟩
    cases hc with
    | line t ht => simpa using fun h => (ht 0 h).2 rfl
    | block t h0 ht => simpa using h0

theorem number_plain {s : List UInt8} (h : Number s) : ∀ c ∈ s, Plain c := by
  intro c hc
  have hk : ∀ c, CJson.numChar c = true → Plain c := CJson.byte_all (p := fun c => CJson.numChar c = true → Plain c) (by decide +kernel)
  exact hk c ((CJson.number_chars h).1 c hc)

/-- C117, the document. A JSON text, with white space and comments around it, is replaced by itself without the white space outside strings; that is a text of the same document, and leaving out
white space again changes nothing. Missing: documents in which a string or a name ends in a backslash, see `c117_backslash_counterexample`. -/
theorem c117_document_partial {V : Type} (den : List UInt8 → V) (g s g' post : List UInt8) (n : Nat) (j : CJson.J V) (hg : Gap g) (hg' : Gap g')
    (h : Val (fun s v => Number s ∧ s.length ≤ 63 ∧ v = den s) n s j) (hj : Strings (fun s => s.getLast? ≠ some 0x5C) j) :
    ∃ m', minify (g ++ s ++ g' ++ 0 :: post) = some m' ∧ (strip s ++ [0]) <+: m' ∧ post <:+ m' ∧
      Val (fun s v => Number s ∧ s.length ≤ 63 ∧ v = den s) n (strip s) j ∧ strip (strip s) = strip s := by
  obtain ⟨s', h1, h2⟩ := val_good (fun s v hn => number_plain hn.1) n s j h hj
  have hs : strip s = s' := by simpa [strip] using (h1 []).2
  have hz : 0 ∉ g ++ s ++ g' := by
    simp only [List.mem_append, not_or]
    exact ⟨⟨gap_nz hg, fun hx => CJson.val_nz n s j h 0 hx rfl⟩, gap_nz hg'⟩
  obtain ⟨m', e1, _, e3, e4⟩ := minify_at (g ++ s ++ g') post hz
  refine ⟨m', e1, ?_, e4, by rw [hs]; exact h2, (strip_strip _ s (Nat.le_refl _)).1⟩
  have hm : mini (g ++ s ++ g' ++ 0 :: post) = s' := by
    rw [List.append_assoc, List.append_assoc, mini_gap hg, (h1 _).1, mini_gap hg', mini.eq_def]
    simp
  rw [hm] at e3
  rw [hs]; exact e3

/-- C117, reading. The parser gives the same document for the minified text as for the original one. Missing: as above; and numbers of more than 63 characters and documents nested more than 1000
deep, which the parser refuses. -/
theorem c117_reads_partial {V : Type} (strtod : List UInt8 → Nat × V) (den : List UInt8 → V) (hd : ∀ s, Number s → strtod s = (s.length, den s))
    (w s w' post : List UInt8) (j : CJson.J V) (hw : Ws w) (hw' : Ws w') (h : Val (fun s v => Number s ∧ s.length ≤ 63 ∧ v = den s) 1000 s j)
    (hj : Strings (fun s => s.getLast? ≠ some 0x5C) j) :
    ∃ m' k k', minify (w ++ s ++ w' ++ 0 :: post) = some m' ∧ CJson.parse strtod (w ++ s ++ w' ++ 0 :: post) = .ok (j, k) ∧ CJson.parse strtod m' = .ok (j, k') ∧ k' ≤ k := by
  have gap : ∀ w, Ws w → Gap w := by
    intro w hw
    induction w with
    | nil => exact .nil
    | cons c w ih =>
      refine .blank c w ?_ (ih (fun b hb => hw b (by simp [hb])))
      rcases hw c (by simp) with h | h | h | h <;> simp [h]
  obtain ⟨m', h1, ⟨t, rfl⟩, _, h4, _⟩ := c117_document_partial den w s w' post 1000 j (gap w hw) (gap w' hw') h hj
  have cut : ∀ (s t : List UInt8), 0 ∉ s → CJson.parse strtod (s ++ 0 :: t) = CJson.parse strtod s := by
    intro s t hs
    unfold CJson.parse
    rw [List.takeWhile_append_of_pos (by intro a ha; simpa using fun h : a = 0 => hs (h ▸ ha))]
    have : s.takeWhile (· ≠ 0) = s := CJson.takeWhile_all _ _ (by intro a ha; simpa using fun h : a = 0 => hs (h ▸ ha))
    rw [this]; simp
  refine ⟨_, w.length + s.length, (strip s).length, h1, ?_, ?_, ?_⟩
  · rw [cut]
    · exact CJson.c63_document_partial strtod den hd w s w' j hw hw' h
    · simp only [List.mem_append, not_or]
      exact ⟨⟨fun hx => CJson.ws_nz hw 0 hx rfl, fun hx => CJson.val_nz 1000 s j h 0 hx rfl⟩, fun hx => CJson.ws_nz hw' 0 hx rfl⟩
  · rw [List.append_assoc, List.singleton_append, cut _ _ (fun hx => CJson.val_nz 1000 _ j h4 0 hx rfl)]
    have := CJson.c63_document_partial strtod den hd [] (strip s) [] j ws_nil ws_nil h4
    simpa using this
  · obtain ⟨s', g1, _⟩ := val_good (fun s v hn => number_plain hn.1) 1000 s j h hj
    have hs : strip s = s' := by simpa [strip] using (g1 []).2
    have hsub := mini_sub s
    have hm : mini s = strip s := by have := (g1 []).1; rw [hs]; simpa [mini.eq_def []] using this
    rw [hm] at hsub
    have := hsub.length_le
    have := (List.takeWhile_sublist (fun x : UInt8 => decide (x ≠ 0)) (l := s)).length_le
    omega

theorem Str.join {a o b p : List UInt8} (h : Str a o) (h' : Str b p) : Str (a ++ b) (o ++ p) := by
  induction h with
  | nil => exact h'
  | cons u o s t hu hs ih => rw [List.append_assoc, List.append_assoc]; exact .cons _ _ _ _ hu ih

theorem str_ascii {y : List UInt8} (h : ∀ c ∈ y, 0x20 ≤ c ∧ c < 0x80 ∧ c ≠ 0x22 ∧ c ≠ 0x5C) : Str y y := by
  induction y with
  | nil => exact .nil
  | cons c y ih =>
    obtain ⟨h1, h2, h3, h4⟩ := h c (by simp)
    have hu : utf8 c.toNat = [c] := by
      unfold utf8
      rw [if_pos (by exact UInt8.lt_iff_toNat_lt.mp h2)]
      simp
    have := Str.cons [c] [c] y y (hu ▸ .raw c.toNat (.inl (by have := UInt8.lt_iff_toNat_lt.mp h2; simp at this; omega)) (UInt8.le_iff_toNat_le.mp h1)
      (fun e => h3 (UInt8.toNat_inj.mp e)) (fun e => h4 (UInt8.toNat_inj.mp e))) (ih (fun x hx => h x (by simp [hx])))
    exact this

/-! A text that meets the hypotheses of `c117_document_partial` and `c117_reads_partial`: `[ 1 , "a \\" b" ]`, with comments around it in the first case. -/

theorem sample_doc : Val (fun s v => Number s ∧ s.length ≤ 63 ∧ v = s.length) 1000 "[ 1 , \"a \\\" b\" ]".toUTF8.toList (.arr [.num 1, .str "a \" b".toUTF8.toList]) := by
  unfold Val
  refine .inr (.inr (.inr (.inr (.inr (.inr (.inr (.inl ⟨[([0x20], [0x31], [0x20], .num 1),
    ([0x20], 0x22 :: [0x61, 0x20, 0x5C, 0x22, 0x20, 0x62] ++ [0x22], [0x20], .str "a \" b".toUTF8.toList)], by simp, ?_, by decide +kernel, rfl⟩)))))))
  have hw : Ws [0x20] := by intro b hb; simp at hb; simp [hb]
  intro i hi
  simp only [List.mem_cons, List.not_mem_nil, or_false] at hi
  rcases hi with rfl | rfl
  · refine ⟨hw, ?_, hw⟩
    unfold Val
    exact .inr (.inr (.inr (.inl ⟨1, ⟨⟨[], [0x31], [], [], rfl, .inl rfl, ⟨by simp, by decide +kernel⟩, .inr (by decide), .inl rfl, .inl rfl⟩, by simp, rfl⟩, rfl⟩)))
  · refine ⟨hw, ?_, hw⟩
    unfold Val
    refine .inr (.inr (.inr (.inr (.inl ⟨_, _, ?_, rfl, rfl⟩))))
    have h : Str ([0x61, 0x20] ++ ([0x5C, 0x22] ++ [0x20, 0x62])) ([0x61, 0x20] ++ ([0x22] ++ [0x20, 0x62])) :=
      Str.join (str_ascii (by decide)) (.cons _ _ _ _ (.letter _ _ (by decide)) (str_ascii (by decide)))
    have e : "a \" b".toUTF8.toList = [0x61, 0x20] ++ ([0x22] ++ [0x20, 0x62]) := by decide +kernel
    rw [e]; exact h

theorem sample_strings : Strings (V := Nat) (fun s => s.getLast? ≠ some 0x5C) (.arr [.num 1, .str "a \" b".toUTF8.toList]) := by
  refine .arr _ fun x hx => ?_
  simp only [List.mem_cons, List.not_mem_nil, or_false] at hx
  rcases hx with rfl | rfl
  · exact .num _
  · exact .str _ (by decide +kernel)

/-- Case for `c117_document_partial`, with a comment on either side, one of them with stars in it. -/
example : Gap ("/***/ ".toUTF8.toList) ∧ Gap ("// x\n".toUTF8.toList) ∧
    minify ("/***/ ".toUTF8.toList ++ "[ 1 , \"a \\\" b\" ]".toUTF8.toList ++ "// x\n".toUTF8.toList ++ [0]) =
      some ("[1,\"a \\\" b\"]".toUTF8.toList ++ [0] ++ ("/***/ [ 1 , \"a \\\" b\" ]// x\n".toUTF8.toList ++ [0]).drop 13) := by
  refine ⟨?_, ?_, by decide +kernel⟩
  · have h : Gap ((0x2F :: 0x2A :: [0x2A] ++ [0x2A, 0x2F]) ++ [0x20]) := by
      refine .comment _ _ (.block [0x2A] (by simp) ?_) (.blank _ _ (by simp) .nil)
      intro a b e
      have hm : (0x2F : UInt8) ∈ [0x2A] ++ [0x2A] := by rw [e]; simp
      exact absurd hm (by decide)
    have e : "/***/ ".toUTF8.toList = (0x2F :: 0x2A :: [0x2A] ++ [0x2A, 0x2F]) ++ [0x20] := by decide +kernel
    rw [e]; exact h
  · have h : Gap ((0x2F :: 0x2F :: [0x20, 0x78] ++ [10]) ++ []) := .comment _ _ (.line [0x20, 0x78] (by decide)) .nil
    have e : "// x\n".toUTF8.toList = (0x2F :: 0x2F :: [0x20, 0x78] ++ [10]) ++ [] := by decide +kernel
    rw [e]; exact h

/-- Case for `c117_reads_partial`: the sample with white space around it. -/
example : ∃ m' k k', minify ([10] ++ "[ 1 , \"a \\\" b\" ]".toUTF8.toList ++ [0x20] ++ 0 :: []) = some m' ∧
    CJson.parse (fun s => (s.length, s.length)) ([10] ++ "[ 1 , \"a \\\" b\" ]".toUTF8.toList ++ [0x20] ++ 0 :: []) = .ok (.arr [.num 1, .str "a \" b".toUTF8.toList], k) ∧
    CJson.parse (fun s => (s.length, s.length)) m' = .ok (.arr [.num 1, .str "a \" b".toUTF8.toList], k') ∧ k' ≤ k :=
  c117_reads_partial _ (fun s => s.length) (fun _ _ => rfl) [10] _ [0x20] [] _ (by intro b hb; simp at hb; simp [hb]) (by intro b hb; simp at hb; simp [hb]) sample_doc sample_strings

theorem str_units {b o : List UInt8} (h : Str b o) (c : UInt8) (r : List UInt8) (hc : c ≠ 0x22) : str (b ++ c :: r) = (b ++ (str (c :: r)).1, (str (c :: r)).2) := by
  induction h with
  | nil => rfl
  | cons u o s t hu hs ih =>
    rw [List.append_assoc, unit_str hu, ih]
    · simp
    · intro _
      cases hs with
      | nil => simpa using hc
      | cons u2 o2 s2 t2 hu2 hs2 =>
        obtain ⟨n1, n2⟩ := unit_ne hu2
        cases u2 with
        | nil => exact absurd rfl n1
        | cons x u2 => simpa using n2

theorem mini_blanks (y r : List UInt8) (h : ∀ c ∈ y, 0x20 ≤ c ∧ c < 0x80 ∧ c ≠ 0x22 ∧ c ≠ 0x5C ∧ c ≠ 0x2F) : mini (y ++ r) = y.filter (· ≠ 0x20) ++ mini r := by
  induction y with
  | nil => rfl
  | cons c y ih =>
    have ih := ih (fun x hx => h x (by simp [hx]))
    obtain ⟨h1, _, h3, h4, h5⟩ := h c (by simp)
    rw [List.cons_append, mini.eq_def]
    dsimp only
    have hk : ∀ c : UInt8, 0x20 ≤ c → c ≠ 0 ∧ c ≠ 9 ∧ c ≠ 13 ∧ c ≠ 10 := CJson.byte_all (p := fun c => 0x20 ≤ c → c ≠ 0 ∧ c ≠ 9 ∧ c ≠ 13 ∧ c ≠ 10) (by decide +kernel)
    obtain ⟨k1, k2, k3, k4⟩ := hk c h1
    rw [if_neg k1]
    by_cases hb : c = 0x20
    · rw [if_pos (.inl hb), ih]; simp [hb]
    · rw [if_neg (by simp [hb, k2, k3, k4]), if_neg h5, if_neg h3, ih]; simp [hb]

/-- C117 fails behind a string that ends in a backslash: `["…\\","y"]` is a JSON text, but the backslash that ends the first string is taken for one that goes with the quote, so the second string is
taken for text outside strings, and loses its blanks. -/
theorem c117_backslash_counterexample {V : Type} (strtod : List UInt8 → Nat × V) (den : List UInt8 → V) (hd : ∀ s, Number s → strtod s = (s.length, den s))
    (x o y post : List UInt8) (hx : Str x o) (hy : ∀ c ∈ y, 0x20 ≤ c ∧ c < 0x80 ∧ c ≠ 0x22 ∧ c ≠ 0x5C ∧ c ≠ 0x2F) (hb : 0x20 ∈ y) :
    ∃ m' k k', minify ([0x5B, 0x22] ++ x ++ [0x5C, 0x5C, 0x22, 0x2C, 0x22] ++ y ++ [0x22, 0x5D] ++ 0 :: post) = some m' ∧
      CJson.parse strtod ([0x5B, 0x22] ++ x ++ [0x5C, 0x5C, 0x22, 0x2C, 0x22] ++ y ++ [0x22, 0x5D]) = .ok (.arr [.str (o ++ [0x5C]), .str y], k) ∧
      CJson.parse strtod m' = .ok (.arr [.str (o ++ [0x5C]), .str (y.filter (· ≠ 0x20))], k') ∧ y.filter (· ≠ 0x20) ≠ y := by
  have doc : ∀ z, (∀ c ∈ z, 0x20 ≤ c ∧ c < 0x80 ∧ c ≠ 0x22 ∧ c ≠ 0x5C) →
      Val (fun s v => Number s ∧ s.length ≤ 63 ∧ v = den s) 1000 ([0x5B, 0x22] ++ x ++ [0x5C, 0x5C, 0x22, 0x2C, 0x22] ++ z ++ [0x22, 0x5D]) (.arr [.str (o ++ [0x5C]), .str z]) := by
    intro z hz
    unfold Val
    refine .inr (.inr (.inr (.inr (.inr (.inr (.inr (.inl ⟨[([], 0x22 :: (x ++ [0x5C, 0x5C]) ++ [0x22], [], .str (o ++ [0x5C])), ([], 0x22 :: z ++ [0x22], [], .str z)], by simp, ?_, ?_, rfl⟩)))))))
    · intro i hi
      simp only [List.mem_cons, List.not_mem_nil, or_false] at hi
      rcases hi with rfl | rfl
      · refine ⟨ws_nil, ?_, ws_nil⟩
        unfold Val
        exact .inr (.inr (.inr (.inr (.inl ⟨x ++ [0x5C, 0x5C], o ++ [0x5C], Str.join hx (.cons [0x5C, 0x5C] [0x5C] [] [] (.letter _ _ (by decide)) .nil), rfl, rfl⟩))))
      · refine ⟨ws_nil, ?_, ws_nil⟩
        unfold Val
        exact .inr (.inr (.inr (.inr (.inl ⟨z, z, str_ascii hz, rfl, rfl⟩))))
    · simp [commas]
  have d1 := doc y (fun c hc => ⟨(hy c hc).1, (hy c hc).2.1, (hy c hc).2.2.1, (hy c hc).2.2.2.1⟩)
  have d2 := doc (y.filter (· ≠ 0x20)) (fun c hc => by have hc := (List.mem_filter.mp hc).1; exact ⟨(hy c hc).1, (hy c hc).2.1, (hy c hc).2.2.1, (hy c hc).2.2.2.1⟩)
  obtain ⟨m', e1, _, ⟨t, e3⟩, _⟩ := minify_at ([0x5B, 0x22] ++ x ++ [0x5C, 0x5C, 0x22, 0x2C, 0x22] ++ y ++ [0x22, 0x5D]) post (fun hx => CJson.val_nz 1000 _ _ d1 0 hx rfl)
  have hm : mini ([0x5B, 0x22] ++ x ++ [0x5C, 0x5C, 0x22, 0x2C, 0x22] ++ y ++ [0x22, 0x5D] ++ 0 :: post) =
      [0x5B, 0x22] ++ x ++ [0x5C, 0x5C, 0x22, 0x2C, 0x22] ++ y.filter (· ≠ 0x20) ++ [0x22, 0x5D] := by
    have he : [0x5B, 0x22] ++ x ++ [0x5C, 0x5C, 0x22, 0x2C, 0x22] ++ y ++ [0x22, 0x5D] ++ 0 :: post =
        [0x5B] ++ 0x22 :: (x ++ 0x5C :: (0x5C :: 0x22 :: 0x2C :: 0x22 :: (y ++ 0x22 :: 0x5D :: 0 :: post))) := by simp
    have hs : str (x ++ 0x5C :: (0x5C :: 0x22 :: 0x2C :: 0x22 :: (y ++ 0x22 :: 0x5D :: 0 :: post))) =
        (x ++ [0x5C, 0x5C, 0x22, 0x2C, 0x22], y ++ 0x22 :: 0x5D :: 0 :: post) := by
      rw [str_units hx _ _ (by decide), str_esc _ (by decide)]
      have : str (0x5C :: 0x22 :: 0x2C :: 0x22 :: (y ++ 0x22 :: 0x5D :: 0 :: post)) = ([0x5C, 0x22, 0x2C, 0x22], y ++ 0x22 :: 0x5D :: 0 :: post) := by
        rw [str.eq_def]; simp
        rw [str.eq_def]; simp
        rw [str.eq_def]; simp
      rw [this]
    have hl : mini (0x22 :: 0x5D :: 0 :: post) = [0x22, 0x5D] := by
      have : str (0x5D :: 0 :: post) = ([0x5D], 0 :: post) := by
        rw [str.eq_def]; simp
        rw [str.eq_def]; simp
      rw [mini.eq_def]; simp [this]
      rw [mini.eq_def]; simp
    rw [he, (Good.byte (c := 0x5B) (by decide) _).1, mini.eq_def]
    dsimp only
    rw [if_neg (by decide), if_neg (by decide), if_neg (by decide), if_pos rfl, hs, mini_blanks _ _ hy, hl]
    simp
  rw [hm] at e3
  have p1 := CJson.c63_document_partial strtod den hd [] _ [] _ ws_nil ws_nil d1
  rw [List.nil_append, List.append_nil] at p1
  refine ⟨m', _, ([0x5B, 0x22] ++ x ++ [0x5C, 0x5C, 0x22, 0x2C, 0x22] ++ y.filter (· ≠ 0x20) ++ [0x22, 0x5D]).length, e1, p1, ?_, ?_⟩
  · have := CJson.c63_document_partial strtod den hd [] _ [] _ ws_nil ws_nil d2
    rw [List.nil_append, List.append_nil] at this
    rw [← e3, List.append_assoc, List.singleton_append]
    unfold CJson.parse at this ⊢
    have hz : ∀ a ∈ ([0x5B, 0x22] ++ x ++ [0x5C, 0x5C, 0x22, 0x2C, 0x22] ++ y.filter (· ≠ 0x20) ++ [0x22, 0x5D]), decide (a ≠ 0) = true :=
      fun a ha => by simpa using CJson.val_nz 1000 _ _ d2 a ha
    rw [List.takeWhile_append_of_pos hz]
    rw [CJson.takeWhile_all _ _ hz] at this
    simpa using this
  · intro hf
    have := List.filter_eq_self.mp hf 0x20 hb
    simp at this

/-- Case for `c117_backslash_counterexample`: `["C:\\\\","a b"]` becomes `["C:\\\\","ab"]`. -/
example : minify ("[\"C:\\\\\",\"a b\"]".toUTF8.toList ++ [0]) = some ("[\"C:\\\\\",\"ab\"]".toUTF8.toList ++ [0, 0]) ∧
    Str [0x43, 0x3A] [0x43, 0x3A] ∧ (∀ c ∈ ([0x61, 0x20, 0x62] : List UInt8), 0x20 ≤ c ∧ c < 0x80 ∧ c ≠ 0x22 ∧ c ≠ 0x5C ∧ c ≠ 0x2F) ∧ (0x20 : UInt8) ∈ [0x61, 0x20, 0x62] :=
  ⟨by decide +kernel, str_ascii (by decide), by decide, by decide⟩

end Verif.CJsonMinify
