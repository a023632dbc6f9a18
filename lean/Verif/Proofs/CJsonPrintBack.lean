import Verif.Proofs.CJsonPrint
import Verif.Proofs.CJsonLax
import Verif.Spec.CJsonLax
/-
What is printed is a JSON text of the document.
-/
namespace Verif.CJsonPrint
open Verif.CJson (J)
open Spec
open CJson.Spec (Ws commas)

theorem ws_nil : Ws [] := fun b hb => by cases hb

theorem ws_when {fmt : Bool} {c : UInt8} (h : c = 0x20 ∨ c = 9 ∨ c = 10 ∨ c = 13) : Ws (when fmt [c]) := by
  intro b hb
  cases fmt
  · cases hb
  · rw [List.mem_singleton.mp hb]; exact h

theorem ws_tabs {fmt : Bool} {d : Nat} : Ws (tabs fmt d) := by
  intro b hb
  cases fmt
  · cases hb
  · exact .inr (.inl (List.eq_of_mem_replicate hb))

theorem ws_append {a b : List UInt8} (ha : Ws a) (hb : Ws b) : Ws (a ++ b) := by
  intro c hc
  rcases List.mem_append.mp hc with h | h
  · exact ha c h
  · exact hb c h

/-- The inside of a quoted string. -/
def inner (s : List UInt8) : List UInt8 := (s.takeWhile (· ≠ 0)).flatMap spell

theorem elems_shape (l : Lib) (fmt : Bool) (d : Nat) : ∀ (xs : List (J Dbl)), xs ≠ [] → ∀ w, Ws w →
    ∃ items : List (List UInt8 × List UInt8 × List UInt8 × J Dbl), items ≠ [] ∧ items.map (fun x => x.2.2.2) = xs ∧
      (∀ x ∈ items, Ws x.1 ∧ x.2.1 = text l fmt d x.2.2.2 ∧ Ws x.2.2.1) ∧
      w ++ elems l fmt d xs = commas (items.map fun x => x.1 ++ x.2.1 ++ x.2.2.1)
  | [], h, _, _ => absurd rfl h
  | [x], _, w, hw => by
    refine ⟨[(w, text l fmt d x, [], x)], by simp, rfl, ?_, ?_⟩
    · intro y hy
      rw [List.mem_singleton.mp hy]
      exact ⟨hw, rfl, ws_nil⟩
    · rw [elems, elems]
      simp [commas]
  | x :: y :: ys, _, w, hw => by
    obtain ⟨it, h1, h2, h3, h4⟩ := elems_shape l fmt d (y :: ys) (by simp) (when fmt [0x20]) (ws_when (.inl rfl))
    refine ⟨(w, text l fmt d x, [], x) :: it, by simp, by simp [h2], ?_, ?_⟩
    · intro z hz
      rcases List.mem_cons.mp hz with rfl | hz
      · exact ⟨hw, rfl, ws_nil⟩
      · exact h3 z hz
    · rw [List.map_cons, CJson.commas_cons _ _ (by simp [h1]), ← h4, elems, if_neg (by simp)]
      simp

theorem members_shape (l : Lib) (fmt : Bool) (d : Nat) (z : List UInt8) (hz : Ws z) : ∀ (xs : List (List UInt8 × J Dbl)), xs ≠ [] → ∀ w, Ws w →
    ∃ items : List ((List UInt8 × List UInt8 × List UInt8 × List UInt8) × List UInt8 × List UInt8 × List UInt8 × J Dbl), items ≠ [] ∧
      items.map (fun x => (x.1.2.2.1, x.2.2.2.2)) = xs ∧
      (∀ x ∈ items, Ws x.1.1 ∧ x.1.2.1 = inner x.1.2.2.1 ∧ Ws x.1.2.2.2 ∧ Ws x.2.1 ∧ x.2.2.1 = text l fmt d x.2.2.2.2 ∧ Ws x.2.2.2.1) ∧
      w ++ members l fmt d xs ++ z = commas (items.map fun x => x.1.1 ++ 0x22 :: x.1.2.1 ++ 0x22 :: x.1.2.2.2 ++ 0x3A :: x.2.1 ++ x.2.2.1 ++ x.2.2.2.1)
  | [], h, _, _ => absurd rfl h
  | [(k, x)], _, w, hw => by
    refine ⟨[((w ++ tabs fmt d, inner k, k, []), when fmt [9], text l fmt d x, when fmt [10] ++ z, x)], by simp, rfl, ?_, ?_⟩
    · intro y hy
      rw [List.mem_singleton.mp hy]
      exact ⟨ws_append hw ws_tabs, rfl, ws_nil, ws_when (.inr (.inl rfl)), rfl, ws_append (ws_when (.inr (.inr (.inl rfl)))) hz⟩
    · rw [members, members]
      simp [commas, quoted, inner]
  | (k, x) :: y :: ys, _, w, hw => by
    obtain ⟨it, h1, h2, h3, h4⟩ := members_shape l fmt d z hz (y :: ys) (by simp) (when fmt [10]) (ws_when (.inr (.inr (.inl rfl))))
    refine ⟨((w ++ tabs fmt d, inner k, k, []), when fmt [9], text l fmt d x, [], x) :: it, by simp, by simp [h2], ?_, ?_⟩
    · intro u hu
      rcases List.mem_cons.mp hu with rfl | hu
      · exact ⟨ws_append hw ws_tabs, rfl, ws_nil, ws_when (.inr (.inl rfl)), rfl, ws_nil⟩
      · exact h3 u hu
    · rw [List.map_cons, CJson.commas_cons _ _ (by simp [h1]), ← h4, members, if_neg (by simp)]
      simp [quoted, inner]

/-! ### Strings -/

theorem cut_id {s : List UInt8} (h : (0 : UInt8) ∉ s) : s.takeWhile (· ≠ 0) = s := by
  induction s with
  | nil => rfl
  | cons a s ih =>
    rw [List.takeWhile_cons_of_pos]
    · rw [ih (fun hm => h (List.mem_cons_of_mem _ hm))]
    · rw [decide_eq_true_eq]; rintro rfl; exact h (List.mem_cons_self ..)

set_option synthInstance.maxSize 2000 in
set_option synthInstance.maxHeartbeats 200000 in
/-- How the spelling of a byte is read. -/
theorem spell_cases (c : UInt8) : c ≠ 0 →
    (spell c = [c] ∧ c ≠ 0x22 ∧ c ≠ 0x5C ∧ 0x20 ≤ c.toNat) ∨ (((spell c)[1]?.getD 0, c) ∈ CJson.Spec.letters ∧ spell c = [0x5C, (spell c)[1]?.getD 0]) ∨
      (c.toNat < 0x20 ∧ spell c = [0x5C, 0x75, 0x30, 0x30, (spell c)[4]?.getD 0, (spell c)[5]?.getD 0] ∧
        CJson.Spec.hexDigit ((spell c)[4]?.getD 0) = some (c.toNat / 16) ∧ CJson.Spec.hexDigit ((spell c)[5]?.getD 0) = some (c.toNat % 16)) :=
  CJson.byte_all (p := fun c => c ≠ 0 →
    (spell c = [c] ∧ c ≠ 0x22 ∧ c ≠ 0x5C ∧ 0x20 ≤ c.toNat) ∨ (((spell c)[1]?.getD 0, c) ∈ CJson.Spec.letters ∧ spell c = [0x5C, (spell c)[1]?.getD 0]) ∨
      (c.toNat < 0x20 ∧ spell c = [0x5C, 0x75, 0x30, 0x30, (spell c)[4]?.getD 0, (spell c)[5]?.getD 0] ∧
        CJson.Spec.hexDigit ((spell c)[4]?.getD 0) = some (c.toNat / 16) ∧ CJson.Spec.hexDigit ((spell c)[5]?.getD 0) = some (c.toNat % 16))) (by decide +kernel) c

theorem utf8_small {c : UInt8} (h : c.toNat < 0x20) : CJson.Spec.utf8 c.toNat = [c] := by
  unfold CJson.Spec.utf8
  rw [if_pos (by omega)]
  simp

theorem spell_hex {c : UInt8} (x y : UInt8) (hx : CJson.Spec.hexDigit x = some (c.toNat / 16)) (hy : CJson.Spec.hexDigit y = some (c.toNat % 16)) :
    CJson.Spec.Hex4 [0x30, 0x30, x, y] c.toNat :=
  ⟨0x30, 0x30, x, y, 0, 0, _, _, rfl, by decide +kernel, by decide +kernel, hx, hy, by
    have := c.toNat_lt; omega⟩

theorem lax_spell {c : UInt8} (h : c ≠ 0) : CJson.Lax.Unit (spell c) [c] := by
  rcases spell_cases c h with ⟨h1, _, h2, _⟩ | ⟨h1, h2⟩ | ⟨h1, h2, h3, h4⟩
  · rw [h1]; exact .raw c h2
  · rw [h2]; exact .letter _ _ h1
  · rw [h2]
    have := CJson.Lax.Unit.hex _ _ (spell_hex _ _ h3 h4) (.inl (by omega))
    rw [utf8_small h1] at this
    exact this

theorem closed_spell {c : UInt8} (h : c ≠ 0) {s : List UInt8} (hs : CJson.Lax.Closed s) : CJson.Lax.Closed (spell c ++ s) := by
  rcases spell_cases c h with ⟨h1, h2, h3, _⟩ | ⟨h1, h2⟩ | ⟨h1, h2, h3, h4⟩
  · rw [h1]; exact .plain _ _ h2 h3 hs
  · rw [h2]; exact .esc _ _ hs
  · have g1 := CJson.hex_plain _ (by rw [h3]; rfl)
    have g2 := CJson.hex_plain _ (by rw [h4]; rfl)
    rw [h2]
    exact .esc _ _ (.plain _ _ (by decide) (by decide) (.plain _ _ (by decide) (by decide) (.plain _ _ g1.1 g1.2 (.plain _ _ g2.1 g2.2 hs))))

theorem lax_inner {s : List UInt8} (h : (0 : UInt8) ∉ s) : CJson.Lax.Literal (inner s) s := by
  unfold inner
  rw [cut_id h]
  have : CJson.Lax.Closed (s.flatMap spell) ∧ CJson.Lax.Str (s.flatMap spell) s := by
    induction s with
    | nil => exact ⟨.nil, .nil⟩
    | cons a s ih =>
      obtain ⟨i1, i2⟩ := ih (fun hm => h (List.mem_cons_of_mem _ hm))
      have ha : a ≠ 0 := fun he => h (by simp [he])
      rw [List.flatMap_cons]
      exact ⟨closed_spell ha i1, .cons _ [a] _ _ (lax_spell ha) i2⟩
  exact ⟨this.1, .inl this.2⟩

theorem utf8_bytes {c : Nat} (hs : CJson.Spec.Scalar c) (h0 : c ≠ 0) : (0 : UInt8) ∉ CJson.Spec.utf8 c := by
  by_cases h : 0x80 ≤ c
  · intro hm
    have := CJson.utf8_high h (by rcases hs with h | h <;> omega) 0 hm
    exact absurd this (by decide)
  · unfold CJson.Spec.utf8
    rw [if_pos (by omega)]
    intro hm
    have := congrArg UInt8.toNat (List.mem_singleton.mp hm)
    rw [UInt8.toNat_ofNat'] at this
    have h2 : (0 : UInt8).toNat = 0 := rfl
    omega

theorem spell_high {s : List UInt8} (h : ∀ b ∈ s, 0x80 ≤ b.toNat) : s.flatMap spell = s := by
  induction s with
  | nil => rfl
  | cons a s ih =>
    have h1 : spell a = [a] := CJson.byte_all (p := fun c => 0x80 ≤ c.toNat → spell c = [c]) (by decide +kernel) a (h a (List.mem_cons_self ..))
    rw [List.flatMap_cons, h1, ih (fun b hb => h b (List.mem_cons_of_mem _ hb))]
    rfl

theorem unit_spell {c : Nat} (hs : CJson.Spec.Scalar c) (h0 : c ≠ 0) : CJson.Spec.Unit ((CJson.Spec.utf8 c).flatMap spell) (CJson.Spec.utf8 c) := by
  by_cases h : 0x80 ≤ c
  · rw [spell_high (CJson.utf8_high h (by rcases hs with h | h <;> omega))]
    exact .raw c hs (by omega) (by omega) (by omega)
  · have hu : CJson.Spec.utf8 c = [UInt8.ofNat c] := by
      unfold CJson.Spec.utf8; rw [if_pos (by omega)]
    have ht : (UInt8.ofNat c).toNat = c := by rw [UInt8.toNat_ofNat']; omega
    have hne : UInt8.ofNat c ≠ 0 := by
      intro he
      rw [he] at ht
      exact h0 ht.symm
    rw [hu, List.flatMap_cons, List.flatMap_nil, List.append_nil]
    rcases spell_cases _ hne with ⟨h1, h2, h3, h4⟩ | ⟨h1, h2⟩ | ⟨h1, h2, h3, h4⟩
    · rw [h1]
      have := CJson.Spec.Unit.raw c hs (by omega) (by rintro rfl; exact h2 (by decide)) (by rintro rfl; exact h3 (by decide))
      rw [hu] at this
      exact this
    · rw [h2]; exact .letter _ _ h1
    · rw [h2]
      have := CJson.Spec.Unit.hex _ _ (spell_hex _ _ h3 h4) (.inl (by omega))
      rw [utf8_small h1] at this
      exact this

theorem str_inner {s : List UInt8} (h : Utf8 s) : CJson.Spec.Str (inner s) s := by
  obtain ⟨cs, hc, rfl⟩ := h
  unfold inner
  rw [cut_id]
  · induction cs with
    | nil => exact .nil
    | cons c cs ih =>
      rw [List.flatMap_cons, List.flatMap_append]
      exact .cons _ _ _ _ (unit_spell (hc c (List.mem_cons_self ..)).1 (hc c (List.mem_cons_self ..)).2) (ih (fun x hx => hc x (List.mem_cons_of_mem _ hx)))
  · intro hm
    obtain ⟨c, hcm, h0⟩ := List.mem_flatMap.mp hm
    exact utf8_bytes (hc c hcm).1 (hc c hcm).2 h0

/-! ### Values -/

theorem text_lax {conv : List UInt8 → Nat × Dbl} {l : Lib} {fmt : Bool} {n : Nat} {j : J Dbl} (hw : CJson.Spec.Within n j) :
    Each (fun s => (0 : UInt8) ∉ s) (fun v => CJson.Lax.Number conv (number l v) v) j → ∀ d, CJson.Lax.Val conv n (text l fmt d j) j := by
  induction hw with
  | null n => intro _ d; unfold CJson.Lax.Val; rw [text]; exact .inl ⟨rfl, rfl⟩
  | bool n b =>
    intro _ d
    unfold CJson.Lax.Val
    cases b
    · rw [text]; exact .inr (.inl ⟨rfl, rfl⟩)
    · rw [text]; exact .inr (.inr (.inl ⟨rfl, rfl⟩))
  | num n v =>
    intro h d
    unfold CJson.Lax.Val
    rw [text]
    cases h with
    | num _ h => exact .inr (.inr (.inr (.inl ⟨v, h, rfl⟩)))
  | str n s =>
    intro h d
    unfold CJson.Lax.Val
    rw [text]
    cases h with
    | str _ h => exact .inr (.inr (.inr (.inr (.inl ⟨inner s, s, lax_inner h, rfl, rfl⟩))))
  | arr n xs _ ih =>
    intro h d
    unfold CJson.Lax.Val
    rw [text]
    cases h with
    | arr _ h =>
      refine .inr (.inr (.inr (.inr (.inr ?_))))
      dsimp only
      by_cases hx : xs = []
      · subst hx
        refine .inl ⟨[], CJson.blank_nil, ?_, rfl⟩
        rw [elems]
      · obtain ⟨it, h1, h2, h3, h4⟩ := elems_shape l fmt (d + 1) xs hx [] ws_nil
        refine .inr (.inr (.inl ⟨it, h1, ?_, ?_, by rw [h2]⟩))
        · intro x hxm
          obtain ⟨g1, g2, g3⟩ := h3 x hxm
          have hmem : x.2.2.2 ∈ xs := by rw [← h2]; exact List.mem_map.mpr ⟨x, hxm, rfl⟩
          exact ⟨CJson.ws_blank g1, by rw [g2]; exact ih _ hmem (h _ hmem) (d + 1), CJson.ws_blank g3⟩
        · rw [← h4]; rfl
  | obj n xs _ ih =>
    intro h d
    unfold CJson.Lax.Val
    rw [text]
    cases h with
    | obj _ hn h =>
      refine .inr (.inr (.inr (.inr (.inr ?_))))
      dsimp only
      by_cases hx : xs = []
      · subst hx
        refine .inr (.inl ⟨when fmt [10] ++ tabs fmt d, CJson.ws_blank (ws_append (ws_when (.inr (.inr (.inl rfl)))) ws_tabs), ?_, rfl⟩)
        rw [members]; simp
      · obtain ⟨it, h1, h2, h3, h4⟩ := members_shape l fmt (d + 1) (tabs fmt d) ws_tabs xs hx (when fmt [10]) (ws_when (.inr (.inr (.inl rfl))))
        refine .inr (.inr (.inr ⟨it, h1, ?_, ?_, by rw [h2]⟩))
        · intro x hxm
          obtain ⟨g1, g2, g3, g4, g5, g6⟩ := h3 x hxm
          have hmem : (x.1.2.2.1, x.2.2.2.2) ∈ xs := by rw [← h2]; exact List.mem_map.mpr ⟨x, hxm, rfl⟩
          exact ⟨CJson.ws_blank g1, by rw [g2]; exact lax_inner (hn _ hmem), CJson.ws_blank g3, CJson.ws_blank g4,
            by rw [g5]; exact ih _ hmem (h _ hmem) (d + 1), CJson.ws_blank g6⟩
        · rw [← h4]; simp

theorem text_val {l : Lib} {fmt : Bool} {n : Nat} {j : J Dbl} (hw : CJson.Spec.Within n j) :
    Each Utf8 (fun v => CJson.Spec.Number (number l v)) j → ∀ d, CJson.Spec.Val (fun s v => CJson.Spec.Number s ∧ s = number l v) n (text l fmt d j) j := by
  induction hw with
  | null n => intro _ d; unfold CJson.Spec.Val; rw [text]; exact .inl ⟨rfl, rfl⟩
  | bool n b =>
    intro _ d
    unfold CJson.Spec.Val
    cases b
    · rw [text]; exact .inr (.inl ⟨rfl, rfl⟩)
    · rw [text]; exact .inr (.inr (.inl ⟨rfl, rfl⟩))
  | num n v =>
    intro h d
    unfold CJson.Spec.Val
    rw [text]
    cases h with
    | num _ h => exact .inr (.inr (.inr (.inl ⟨v, ⟨h, rfl⟩, rfl⟩)))
  | str n s =>
    intro h d
    unfold CJson.Spec.Val
    rw [text]
    cases h with
    | str _ h => exact .inr (.inr (.inr (.inr (.inl ⟨inner s, s, str_inner h, rfl, rfl⟩))))
  | arr n xs _ ih =>
    intro h d
    unfold CJson.Spec.Val
    rw [text]
    cases h with
    | arr _ h =>
      refine .inr (.inr (.inr (.inr (.inr ?_))))
      dsimp only
      by_cases hx : xs = []
      · subst hx
        refine .inl ⟨[], ws_nil, ?_, rfl⟩
        rw [elems]
      · obtain ⟨it, h1, h2, h3, h4⟩ := elems_shape l fmt (d + 1) xs hx [] ws_nil
        refine .inr (.inr (.inl ⟨it, h1, ?_, ?_, by rw [h2]⟩))
        · intro x hxm
          obtain ⟨g1, g2, g3⟩ := h3 x hxm
          have hmem : x.2.2.2 ∈ xs := by rw [← h2]; exact List.mem_map.mpr ⟨x, hxm, rfl⟩
          exact ⟨g1, by rw [g2]; exact ih _ hmem (h _ hmem) (d + 1), g3⟩
        · rw [← h4]; rfl
  | obj n xs _ ih =>
    intro h d
    unfold CJson.Spec.Val
    rw [text]
    cases h with
    | obj _ hn h =>
      refine .inr (.inr (.inr (.inr (.inr ?_))))
      dsimp only
      by_cases hx : xs = []
      · subst hx
        refine .inr (.inl ⟨when fmt [10] ++ tabs fmt d, ws_append (ws_when (.inr (.inr (.inl rfl)))) ws_tabs, ?_, rfl⟩)
        rw [members]; simp
      · obtain ⟨it, h1, h2, h3, h4⟩ := members_shape l fmt (d + 1) (tabs fmt d) ws_tabs xs hx (when fmt [10]) (ws_when (.inr (.inr (.inl rfl))))
        refine .inr (.inr (.inr ⟨it, h1, ?_, ?_, by rw [h2]⟩))
        · intro x hxm
          obtain ⟨g1, g2, g3, g4, g5, g6⟩ := h3 x hxm
          have hmem : (x.1.2.2.1, x.2.2.2.2) ∈ xs := by rw [← h2]; exact List.mem_map.mpr ⟨x, hxm, rfl⟩
          exact ⟨g1, by rw [g2]; exact str_inner (hn _ hmem), g3, g4, by rw [g5]; exact ih _ hmem (h _ hmem) (d + 1), g6⟩
        · rw [← h4]; simp

end Verif.CJsonPrint
