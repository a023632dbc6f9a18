import Verif.Model.CJson
/-
Lemmas about the JSON parser: bounds.
-/
namespace Verif.CJson

theorem rd_ok {buf : List UInt8} {i : Nat} (h : i < buf.length) : rd buf i = .ok buf[i] := by simp [rd, h]

theorem skipRun_bounds (buf : List UInt8) (i : Nat) : i ≤ skipRun buf i ∧ (i ≤ buf.length → skipRun buf i ≤ buf.length) := by
  fun_induction skipRun buf i with
  | case1 i h hb ih => obtain ⟨a, b⟩ := ih; exact ⟨by omega, fun _ => b (by omega)⟩
  | case2 i h hb => exact ⟨Nat.le_refl _, fun h => h⟩
  | case3 i h => exact ⟨Nat.le_refl _, fun h => h⟩

theorem skipWs_ge (buf : List UInt8) (i : Nat) : i ≤ skipWs buf i := by
  have := skipRun_bounds buf i
  unfold skipWs
  split
  · split <;> omega
  · omega

theorem skipWs_lt {buf : List UInt8} {i : Nat} (h : i < buf.length) : skipWs buf i < buf.length := by
  have := skipRun_bounds buf i
  unfold skipWs
  rw [if_pos h]
  split <;> omega

/-- The first pass from `i` finds the quote at `e` after `k` escapes. -/
inductive S (buf : List UInt8) (e : Nat) : Nat → Nat → Prop where
  | stop (h : buf[e]? = some 0x22) : S buf e e 0
  | esc (i k : Nat) (h : buf[i]? = some 0x5C) (hs : S buf e (i + 2) k) : S buf e i (k + 1)
  | plain (i k : Nat) (b : UInt8) (h : buf[i]? = some b) (h1 : b ≠ 0x22) (h2 : b ≠ 0x5C) (hs : S buf e (i + 1) k) : S buf e i k

theorem scan_S (buf : List UInt8) (i s : Nat) : ∀ e k, scan buf i s = .ok (e, k) → ∃ k', k = s + k' ∧ S buf e i k' := by
  fun_induction scan buf i s with
  | case1 i s h hq =>
    intro e k hh
    cases hh
    exact ⟨0, rfl, .stop (by rw [List.getElem?_eq_getElem h, hq])⟩
  | case2 => intro e k hh; cases hh
  | case3 i s h hq hb hl ih =>
    intro e k hh
    obtain ⟨k', h1, h2⟩ := ih e k hh
    exact ⟨k' + 1, by omega, .esc i k' (by rw [List.getElem?_eq_getElem h, hb]) h2⟩
  | case4 i s h hq hb ih =>
    intro e k hh
    obtain ⟨k', h1, h2⟩ := ih e k hh
    exact ⟨k', h1, .plain i k' _ (List.getElem?_eq_getElem h) hq hb h2⟩
  | case5 => intro e k hh; cases hh

theorem scan_of_S {buf : List UInt8} {e i k : Nat} (h : S buf e i k) : ∀ s, scan buf i s = .ok (e, s + k) := by
  induction h with
  | stop h =>
    intro s
    obtain ⟨hl, hv⟩ := List.getElem?_eq_some_iff.mp h
    rw [scan, dif_pos hl, if_pos hv]; rfl
  | esc i k h hs ih =>
    intro s
    obtain ⟨hl, hv⟩ := List.getElem?_eq_some_iff.mp h
    have hl2 : i + 1 < buf.length := by
      cases hs with
      | stop h => have := (List.getElem?_eq_some_iff.mp h).1; omega
      | esc _ _ h _ => have := (List.getElem?_eq_some_iff.mp h).1; omega
      | plain _ _ _ h _ _ _ => have := (List.getElem?_eq_some_iff.mp h).1; omega
    rw [scan, dif_pos hl, hv, if_neg (by decide), if_pos rfl, if_neg (by omega), ih]
    rw [Nat.add_assoc, Nat.add_comm 1 k]
  | plain i k b h h1 h2 hs ih =>
    intro s
    obtain ⟨hl, hv⟩ := List.getElem?_eq_some_iff.mp h
    rw [scan, dif_pos hl, hv, if_neg h1, if_neg h2, ih]

theorem scan_err (buf : List UInt8) (i s : Nat) : ∀ x, scan buf i s = .error x → x = .reject := by
  fun_induction scan buf i s with
  | case1 => intro x h; cases h
  | case2 => intro x h; cases h; rfl
  | case3 _ _ _ _ _ _ ih => exact ih
  | case4 _ _ _ _ _ ih => exact ih
  | case5 => intro x h; cases h; rfl

theorem S.le {buf : List UInt8} {e i k : Nat} (h : S buf e i k) : 2 * k + i ≤ e := by
  induction h with
  | stop h => simp
  | esc i k h hs ih => omega
  | plain i k b h h1 h2 hs ih => omega

theorem S.inside {buf : List UInt8} {e i k : Nat} (h : S buf e i k) : e < buf.length := by
  induction h with
  | stop h => exact (List.getElem?_eq_some_iff.mp h).1
  | esc i k h hs ih => exact ih
  | plain i k b h h1 h2 hs ih => exact ih

/-- The second pass at `i` is in step with the first (`S` at `i`) or in the middle of an escape the first pass took as a whole. -/
def P (buf : List UInt8) (e i k : Nat) : Prop := S buf e i k ∨ S buf e (i + 1) k

theorem P.le {buf : List UInt8} {e i k : Nat} (h : P buf e i k) : 2 * k + i ≤ e := by
  rcases h with h | h <;> have := h.le <;> omega

theorem P.one {buf : List UInt8} {e i k : Nat} (h : P buf e i k) (hi : i < e) :
    ∃ k', P buf e (i + 1) k' ∧ k ≤ k' + 1 ∧ (buf[i]? ≠ some 0x5C → k' = k) := by
  rcases h with h | h
  · cases h with
    | stop h => omega
    | esc i k h hs => exact ⟨k, .inr hs, by omega, fun hn => absurd h hn⟩
    | plain i k b h h1 h2 hs => exact ⟨k, .inl hs, by omega, fun _ => rfl⟩
  · exact ⟨k, .inl h, by omega, fun _ => rfl⟩

theorem P.two {buf : List UInt8} {e i k : Nat} (h : P buf e i k) (hi : i + 2 ≤ e) : ∃ k', P buf e (i + 2) k' ∧ k ≤ k' + 1 := by
  rcases h with h | h
  · cases h with
    | stop h => omega
    | esc i k h hs => exact ⟨k, .inl hs, by omega⟩
    | plain i k b h h1 h2 hs =>
      obtain ⟨k', a, b, _⟩ := P.one (.inl hs) (by omega)
      exact ⟨k', a, b⟩
  · obtain ⟨k', a, b, _⟩ := P.one (.inl h) (by omega)
    exact ⟨k', a, b⟩

theorem P.evens {buf : List UInt8} {e k : Nat} (m i : Nat) (h : P buf e i k) (hi : i + 2 * m ≤ e) : ∃ k', P buf e (i + 2 * m) k' ∧ k ≤ k' + m := by
  induction m with
  | zero => exact ⟨k, h, by omega⟩
  | succ m ih =>
    obtain ⟨k1, a1, b1⟩ := ih (by omega)
    obtain ⟨k2, a2, b2⟩ := a1.two (by omega)
    exact ⟨k2, a2, by omega⟩

theorem hex4_ok (buf : List UInt8) (k i h : Nat) (hl : i + k ≤ buf.length) : ∃ x, hex4 buf k i h = .ok x := by
  induction k generalizing i h with
  | zero => exact ⟨h, rfl⟩
  | succ k ih =>
    rw [hex4, rd_ok (by omega)]
    dsimp only
    split
    · exact ⟨0, rfl⟩
    · exact ih _ _ (by omega)

theorem cont_len (k c : Nat) (acc : List UInt8) : (cont k c acc).2.length = k + acc.length := by
  induction k generalizing c acc with
  | zero => simp [cont]
  | succ k ih => rw [cont, ih, List.length_cons]; omega

theorem toUtf8_len {c : Nat} {bs : List UInt8} (h : toUtf8 c = some bs) : bs.length ≤ 4 ∧ (c < 0x10000 → bs.length ≤ 3) := by
  unfold toUtf8 at h
  split at h
  · cases h; simp
  · split at h
    · cases h; simp [cont_len]
    · split at h
      · cases h; simp [cont_len]
      · split at h
        · cases h; simp [cont_len]; omega
        · cases h

theorem hexDigit_lt : ∀ b d, hexDigit b = some d → d < 16 := by
  intro b d h
  unfold hexDigit at h
  split at h
  · rename_i c
    obtain ⟨c1, c2⟩ := c
    rw [UInt8.le_iff_toNat_le] at c1 c2
    cases h
    have e1 : (0x39 : UInt8).toNat = 57 := rfl
    omega
  · split at h
    · rename_i c
      obtain ⟨c1, c2⟩ := c
      rw [UInt8.le_iff_toNat_le] at c1 c2
      cases h
      have e1 : (0x46 : UInt8).toNat = 70 := rfl
      omega
    · split at h
      · rename_i c
        obtain ⟨c1, c2⟩ := c
        rw [UInt8.le_iff_toNat_le] at c1 c2
        cases h
        have e1 : (0x66 : UInt8).toNat = 102 := rfl
        omega
      · cases h

/-- The value of four digits, 0 if one is none. -/
def hexv (a b c d : UInt8) : Nat :=
  match hexDigit a, hexDigit b, hexDigit c, hexDigit d with
  | some x, some y, some z, some w => ((x * 16 + y) * 16 + z) * 16 + w
  | _, _, _, _ => 0

theorem hexv_lt (a b c d : UInt8) : hexv a b c d < 0x10000 := by
  unfold hexv
  split
  · rename_i x y z w h1 h2 h3 h4
    have := hexDigit_lt _ _ h1
    have := hexDigit_lt _ _ h2
    have := hexDigit_lt _ _ h3
    have := hexDigit_lt _ _ h4
    omega
  · omega

theorem hex4_four (buf : List UInt8) (i : Nat) (h : i + 4 ≤ buf.length) : hex4 buf 4 i 0 = .ok (hexv buf[i] buf[i+1] buf[i+2] buf[i+3]) := by
  unfold hexv
  simp only [hex4, rd_ok (show i < buf.length by omega), rd_ok (show i + 1 < buf.length by omega), rd_ok (show i + 1 + 1 < buf.length by omega),
    rd_ok (show i + 1 + 1 + 1 < buf.length by omega), Nat.shiftLeft_eq]
  cases hexDigit buf[i] with
  | none => rfl
  | some x =>
    cases hexDigit buf[i+1] with
    | none => rfl
    | some y =>
      cases hexDigit buf[i+1+1] with
      | none => rfl
      | some z =>
        cases hexDigit buf[i+1+1+1] with
        | none => rfl
        | some w => simp

/-- What a UTF-16 literal consumes and produces. -/
theorem utf16_spec {buf : List UInt8} {i e : Nat} (he : e ≤ buf.length) :
    (∀ x, utf16 buf i e = .error x → x = .reject) ∧
    (∀ n bs, utf16 buf i e = .ok (n, bs) → (n = 6 ∧ bs.length ≤ 3 ∧ i + 6 ≤ e) ∨ (n = 12 ∧ bs.length ≤ 4 ∧ i + 12 ≤ e)) := by
  unfold utf16
  split
  · simp
  · rw [hex4_four buf (i + 2) (by omega)]
    dsimp only
    have hlt := hexv_lt buf[i+2] buf[i+2+1] buf[i+2+2] buf[i+2+3]
    generalize hexv buf[i+2] buf[i+2+1] buf[i+2+2] buf[i+2+3] = first at hlt
    split
    · simp
    · split
      · split
        · simp
        · rw [rd_ok (show i + 6 < buf.length by omega), rd_ok (show i + 7 < buf.length by omega)]
          dsimp only
          split
          · simp
          · rw [hex4_four buf (i + 8) (by omega)]
            dsimp only
            split
            · simp
            · split
              · simp
              · rename_i bs hbs
                refine ⟨fun x h => (by cases h), fun n bs' h => ?_⟩
                cases h
                exact .inr ⟨rfl, (toUtf8_len hbs).1, by omega⟩
      · split
        · simp
        · rename_i bs hbs
          refine ⟨fun x h => (by cases h), fun n bs' h => ?_⟩
          cases h
          exact .inl ⟨rfl, (toUtf8_len hbs).2 hlt, by omega⟩

/-- Room left for the second pass at `i` with `n` bytes written, out of a budget `B`. -/
def Fits (buf : List UInt8) (e B i n : Nat) : Prop :=
  (∃ k, P buf e i k ∧ n + (e - i) ≤ B + k) ∨ (i = e + 1 ∧ n ≤ B)

theorem Fits.bound {buf : List UInt8} {e B i n : Nat} (h : Fits buf e B i n) : n ≤ B := by
  rcases h with ⟨k, h1, h2⟩ | ⟨_, h⟩
  · have := h1.le; omega
  · exact h

theorem emit_ok {cap : Nat} {out bs : List UInt8} (h : out.length + bs.length ≤ cap) : emit cap out bs = .ok (out ++ bs) := by
  rw [emit, if_pos h]

/-- The second pass neither reads outside the buffer nor writes more than the budget. -/
theorem decode_safe {buf : List UInt8} {e B cap : Nat} (he : buf[e]? = some 0x22) (hB : B ≤ cap) (i : Nat) (out : List UInt8)
    (hf : Fits buf e B i out.length) :
    (∀ x, decode buf e cap i out = .error x → x = .reject) ∧ (∀ o, decode buf e cap i out = .ok o → o.length ≤ B) := by
  have hel : e < buf.length := (List.getElem?_eq_some_iff.mp he).1
  have step : ∀ n, n ≤ e - i → True := fun _ _ => trivial
  induction hm : e + 1 - i using Nat.strongRecOn generalizing i out with
  | _ m ih =>
  rw [decode]
  split
  · rename_i hi
    obtain ⟨k, hp, hn⟩ : ∃ k, P buf e i k ∧ out.length + (e - i) ≤ B + k := by
      rcases hf with h | ⟨h, _⟩
      · exact h
      · omega
    have hk := hp.le
    rw [rd_ok (show i < buf.length by omega)]
    dsimp only
    split
    · rename_i hb
      obtain ⟨k', hp', _, hkk⟩ := hp.one hi
      have hk' : k' = k := hkk (by rw [List.getElem?_eq_getElem (by omega)]; simpa using hb)
      subst hk'
      rw [emit_ok (by simp only [List.length_singleton]; omega)]
      dsimp only
      exact ih (e + 1 - (i + 1)) (by omega) (i + 1) _ (.inl ⟨k', hp', by simp only [List.length_append, List.length_singleton]; omega⟩) (fun _ _ => trivial) rfl
    · rename_i hb
      simp only [ne_eq, Decidable.not_not] at hb
      rw [rd_ok (show i + 1 < buf.length by omega)]
      dsimp only
      split
      · rename_i hu
        obtain ⟨u1, u2⟩ := utf16_spec (buf := buf) (i := i) (e := e) (by omega)
        split
        · rename_i x hx
          exact ⟨fun y h => by cases h; exact u1 _ hx, fun o h => by cases h⟩
        · rename_i n bs hx
          have hadv : ∀ m', n = 2 * m' → bs.length ≤ m' → i + 2 * m' ≤ e →
              Fits buf e B (i + n) (out ++ bs).length := by
            intro m' h1 h2 h3
            obtain ⟨k', hp', hkk⟩ := P.evens m' i hp h3
            refine .inl ⟨k', by rw [h1]; exact hp', ?_⟩
            rw [List.length_append]; omega
          have hfit : Fits buf e B (i + n) (out ++ bs).length ∧ 0 < n := by
            rcases u2 n bs hx with ⟨h1, h2, h3⟩ | ⟨h1, h2, h3⟩
            · exact ⟨hadv 3 h1 h2 (by omega), by omega⟩
            · exact ⟨hadv 6 h1 (by omega) (by omega), by omega⟩
          have hb2 := hfit.1.bound
          rw [List.length_append] at hb2
          rw [emit_ok (by omega)]
          dsimp only
          rw [if_neg (by omega)]
          exact ih (e + 1 - (i + n)) (by omega) (i + n) _ hfit.1 (fun _ _ => trivial) rfl
      · split
        · simp
        · rename_i d hd
          have hfit : Fits buf e B (i + 2) (out ++ [d]).length := by
            rw [List.length_append, List.length_singleton]
            by_cases h2 : i + 2 ≤ e
            · obtain ⟨k', hp', hkk⟩ := hp.two h2
              exact .inl ⟨k', hp', by omega⟩
            · exact .inr ⟨by omega, by omega⟩
          have hb2 := hfit.bound
          rw [List.length_append, List.length_singleton] at hb2
          rw [emit_ok (by rw [List.length_singleton]; omega)]
          dsimp only
          exact ih (e + 1 - (i + 2)) (by omega) (i + 2) _ hfit (fun _ _ => trivial) rfl
  · refine ⟨fun x h => (by cases h), fun o h => ?_⟩
    cases h
    exact hf.bound

/-- `parse_string` at an offset inside the buffer: it stays inside, and moves forward. -/
theorem parseString_safe {buf : List UInt8} {i : Nat} (hi : i < buf.length) :
    (∀ x, parseString buf i = .error x → x = .reject) ∧ (∀ s j, parseString buf i = .ok (s, j) → i + 2 ≤ j ∧ j ≤ buf.length ∧ s.length + i + 2 ≤ j) := by
  unfold parseString
  rw [rd_ok hi]
  dsimp only
  split
  · simp
  · split
    · rename_i x hx
      refine ⟨fun y h => by cases h; exact scan_err _ _ _ _ hx, fun s j h => by cases h⟩
    · rename_i e sk hx
      obtain ⟨k, hk, hS⟩ := scan_S _ _ _ _ _ hx
      have hle := hS.le
      have hin := hS.inside
      have hq : buf[e]? = some 0x22 := by
        clear hle hin hx hk
        generalize i + 1 = i' at hS
        induction hS with
        | stop h => exact h
        | esc i k h hs ih => exact ih
        | plain i k b h h1 h2 hs ih => exact ih
      obtain ⟨d1, d2⟩ := decode_safe (B := e - (i + 1) - k) (cap := e - i - sk + 1) hq (by omega) (i + 1) []
        (.inl ⟨k, .inl hS, by simp only [List.length_nil]; omega⟩)
      split
      · rename_i x hd
        exact ⟨fun y h => by cases h; exact d1 _ hd, fun s j h => by cases h⟩
      · rename_i out hd
        have := d2 _ hd
        rw [emit_ok (by rw [List.length_singleton]; omega)]
        refine ⟨fun x h => (by cases h), fun s j h => ?_⟩
        cases h
        omega

theorem isAt_lt {buf : List UInt8} {i : Nat} {b : UInt8} (h : isAt buf i b = true) : i < buf.length := by
  simp only [isAt, decide_eq_true_eq] at h
  exact (List.getElem?_eq_some_iff.mp h).1

/-- An element parser that stays inside and moves forward. -/
def Good {V : Type} (val : Nat → R (J V × Nat)) : Prop :=
  ∀ i, (∀ x, val i = .error x → x = .reject) ∧ (∀ v j, val i = .ok (v, j) → i < j)

theorem elems_good {V : Type} {val : Nat → R (J V × Nat)} {buf : List UInt8} (hv : Good val) (fuel i : Nat) (acc : List (J V)) (hf : buf.length < fuel + i)
    (hi : i < buf.length) :
    (∀ x, elems val buf fuel i acc = .error x → x = .reject) ∧ (∀ xs k, elems val buf fuel i acc = .ok (xs, k) → i < k) := by
  induction fuel generalizing i acc with
  | zero => omega
  | succ fuel ih =>
    rw [elems]
    obtain ⟨g1, g2⟩ := hv (skipWs buf (i + 1))
    have h0 := skipWs_ge buf (i + 1)
    cases hx : val (skipWs buf (i + 1)) with
    | error x => exact ⟨fun y h => by cases h; exact g1 _ hx, fun _ _ h => by cases h⟩
    | ok p =>
      obtain ⟨v, j⟩ := p
      have h1 := g2 _ _ hx
      have h2 := skipWs_ge buf j
      dsimp only
      split
      · rename_i hc
        obtain ⟨a, b⟩ := ih (skipWs buf j) (acc ++ [v]) (by omega) (isAt_lt hc)
        exact ⟨a, fun xs k h => by have := b xs k h; omega⟩
      · split
        · exact ⟨fun x h => (by cases h), fun xs k h => by cases h; omega⟩
        · exact ⟨fun x h => by cases h; rfl, fun xs k h => by cases h⟩

theorem array_good {V : Type} {val : Nat → R (J V × Nat)} {buf : List UInt8} (hv : Good val) (i : Nat) :
    (∀ x, array val buf i = .error x → x = .reject) ∧ (∀ v k, array val buf i = .ok (v, k) → i < k) := by
  unfold array
  have h0 := skipWs_ge buf (i + 1)
  dsimp only
  split
  · exact ⟨fun x h => (by cases h), fun v k h => by cases h; omega⟩
  · split
    · exact ⟨fun x h => by cases h; rfl, fun v k h => by cases h⟩
    · obtain ⟨a, b⟩ := elems_good (buf := buf) hv (buf.length + 1) (skipWs buf (i + 1) - 1) [] (by omega) (by omega)
      split
      · rename_i x hx
        exact ⟨fun y h => by cases h; exact a _ hx, fun v k h => by cases h⟩
      · rename_i xs k hx
        refine ⟨fun x h => (by cases h), fun v k' h => ?_⟩
        cases h
        have := b _ _ hx
        omega

theorem members_good {V : Type} {val : Nat → R (J V × Nat)} {buf : List UInt8} (hv : Good val) (hl : buf.getLast? ≠ some 0x2C) (fuel i : Nat)
    (acc : List (List UInt8 × J V)) (hf : buf.length < fuel + i) (hi : i + 1 < buf.length) :
    (∀ x, members val buf fuel i acc = .error x → x = .reject) ∧ (∀ xs k, members val buf fuel i acc = .ok (xs, k) → i < k) := by
  induction fuel generalizing i acc with
  | zero => omega
  | succ fuel ih =>
    rw [members]
    obtain ⟨s1, s2⟩ := parseString_safe (skipWs_lt hi)
    have h0 := skipWs_ge buf (i + 1)
    split
    · rename_i x hx
      exact ⟨fun y h => by cases h; exact s1 _ hx, fun _ _ h => by cases h⟩
    · rename_i name j hx
      have h1 := s2 _ _ hx
      have h2 := skipWs_ge buf j
      dsimp only
      split
      · obtain ⟨g1, g2⟩ := hv (skipWs buf (skipWs buf j + 1))
        have h3 := skipWs_ge buf (skipWs buf j + 1)
        split
        · rename_i x hx
          exact ⟨fun y h => by cases h; exact g1 _ hx, fun _ _ h => by cases h⟩
        · rename_i v j' hx'
          have h4 := g2 _ _ hx'
          have h5 := skipWs_ge buf j'
          split
          · rename_i hc
            have hlt := isAt_lt hc
            have hne : skipWs buf j' + 1 < buf.length := by
              rcases Nat.lt_or_ge (skipWs buf j' + 1) buf.length with h | h
              · exact h
              · exfalso
                apply hl
                rw [List.getLast?_eq_getElem?, show buf.length - 1 = skipWs buf j' by omega]
                simpa [isAt] using hc
            obtain ⟨a, b⟩ := ih (skipWs buf j') (acc ++ [(name, v)]) (by omega) hne
            exact ⟨a, fun xs k h => by have := b xs k h; omega⟩
          · split
            · exact ⟨fun x h => (by cases h), fun xs k h => by cases h; omega⟩
            · exact ⟨fun x h => by cases h; rfl, fun xs k h => by cases h⟩
      · exact ⟨fun x h => by cases h; rfl, fun xs k h => by cases h⟩

theorem object_good {V : Type} {val : Nat → R (J V × Nat)} {buf : List UInt8} (hv : Good val) (hl : buf.getLast? ≠ some 0x2C) (i : Nat) :
    (∀ x, object val buf i = .error x → x = .reject) ∧ (∀ v k, object val buf i = .ok (v, k) → i < k) := by
  unfold object
  have h0 := skipWs_ge buf (i + 1)
  dsimp only
  split
  · exact ⟨fun x h => (by cases h), fun v k h => by cases h; omega⟩
  · split
    · exact ⟨fun x h => by cases h; rfl, fun v k h => by cases h⟩
    · obtain ⟨a, b⟩ := members_good hv hl (buf.length + 1) (skipWs buf (i + 1) - 1) [] (by omega) (by omega)
      split
      · rename_i x hx
        exact ⟨fun y h => by cases h; exact a _ hx, fun v k h => by cases h⟩
      · rename_i xs k hx
        refine ⟨fun x h => (by cases h), fun v k' h => ?_⟩
        cases h
        have := b _ _ hx
        omega

theorem parseNumber_good {V : Type} (strtod : List UInt8 → Nat × V) (buf : List UInt8) (i : Nat) :
    (∀ x, parseNumber strtod buf i = .error x → x = .reject) ∧ (∀ v k, parseNumber strtod buf i = .ok (v, k) → i < k) := by
  unfold parseNumber
  dsimp only
  split
  · exact ⟨fun x h => by cases h; rfl, fun v k h => by cases h⟩
  · exact ⟨fun x h => (by cases h), fun v k h => by cases h; omega⟩

/-- The bracket cases of `parse_value`. -/
def nested {V : Type} (strtod : List UInt8 → Nat × V) (buf : List UInt8) (n : Nat) (i : Nat) (b : UInt8) : R (J V × Nat) :=
  match n with
  | 0 => .error .reject
  | n + 1 => if b = 0x5B then array (value strtod buf n) buf i else if b = 0x7B then object (value strtod buf n) buf i else .error .reject

theorem value_eq {V : Type} (strtod : List UInt8 → Nat × V) (buf : List UInt8) (n i : Nat) : value strtod buf n i =
    if word buf i [0x6E, 0x75, 0x6C, 0x6C] then .ok (.null, i + 4)
    else if word buf i [0x66, 0x61, 0x6C, 0x73, 0x65] then .ok (.bool false, i + 5)
    else if word buf i [0x74, 0x72, 0x75, 0x65] then .ok (.bool true, i + 4)
    else
      match buf[i]? with
      | none => .error .reject
      | some b =>
        if b = 0x22 then
          match parseString buf i with
          | .error x => .error x
          | .ok (s, j) => .ok (.str s, j)
        else if b = 0x2D ∨ (0x30 ≤ b ∧ b ≤ 0x39) then parseNumber strtod buf i
        else nested strtod buf n i b := by
  cases n with
  | zero =>
    rw [value.eq_def]
    simp only [nested, ite_self]
    rfl
  | succ n => rw [value.eq_def]; rfl

theorem value_good {V : Type} (strtod : List UInt8 → Nat × V) {buf : List UInt8} (hl : buf.getLast? ≠ some 0x2C) (n : Nat) : Good (value strtod buf n) := by
  have main : ∀ n i, (∀ b, (∀ x, nested strtod buf n i b = .error x → x = .reject) ∧ (∀ v k, nested strtod buf n i b = .ok (v, k) → i < k)) →
      (∀ x, value strtod buf n i = .error x → x = .reject) ∧ (∀ v k, value strtod buf n i = .ok (v, k) → i < k) := by
    intro n i hn
    rw [value_eq]
    split
    · exact ⟨fun x h => (by cases h), fun v k h => by cases h; omega⟩
    · split
      · exact ⟨fun x h => (by cases h), fun v k h => by cases h; omega⟩
      · split
        · exact ⟨fun x h => (by cases h), fun v k h => by cases h; omega⟩
        · split
          · exact ⟨fun x h => by cases h; rfl, fun v k h => by cases h⟩
          · rename_i b hb
            split
            · obtain ⟨s1, s2⟩ := parseString_safe (List.getElem?_eq_some_iff.mp hb).1
              split
              · rename_i x hx
                exact ⟨fun y h => by cases h; exact s1 _ hx, fun v k h => by cases h⟩
              · rename_i s j hx
                have := s2 _ _ hx
                exact ⟨fun x h => (by cases h), fun v k h => by cases h; omega⟩
            · split
              · exact parseNumber_good strtod buf i
              · exact hn b
  induction n with
  | zero =>
    intro i
    exact main 0 i fun b => ⟨fun x h => by cases h; rfl, fun v k h => by cases h⟩
  | succ n ih =>
    have hg := ih
    intro i
    refine main (n + 1) i fun b => ?_
    unfold nested
    dsimp only
    split
    · exact array_good hg i
    · split
      · exact object_good hg hl i
      · exact ⟨fun x h => by cases h; rfl, fun v k h => by cases h⟩

end Verif.CJson
