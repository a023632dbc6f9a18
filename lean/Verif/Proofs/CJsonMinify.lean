import Verif.Model.CJsonMinify
import Verif.Spec.CJsonMinify
/-
Minifying in place computes a function of the text.
-/
namespace Verif.CJsonMinify

/-- What follows a line comment. -/
def line : List UInt8 → List UInt8
  | [] => []
  | c :: r => if c = 0 then c :: r else if c = 10 then r else line r

/-- What follows a block comment. -/
def block : List UInt8 → List UInt8
  | [] => []
  | c :: r =>
    if c = 0 then c :: r
    else if c = 0x2A then
      match r with
      | [] => []
      | d :: r' => if d = 0x2F then r' else block (d :: r')
    else block r

/-- What is kept of a string, and what follows it. -/
def str : List UInt8 → List UInt8 × List UInt8
  | [] => ([], [])
  | c :: r =>
    if c = 0 then ([], c :: r)
    else if c = 0x22 then ([c], r)
    else if c = 0x5C then
      match r with
      | [] => ([c], [])
      | d :: r' => if d = 0x22 then (c :: d :: (str r').1, (str r').2) else (c :: (str (d :: r')).1, (str (d :: r')).2)
    else (c :: (str r).1, (str r).2)

theorem line_le (l : List UInt8) : (line l).length ≤ l.length := by
  fun_induction line l <;> simp <;> omega

theorem block_le (l : List UInt8) : (block l).length ≤ l.length := by
  fun_induction block l <;> simp_all <;> omega

theorem str_le (l : List UInt8) : (str l).2.length ≤ l.length := by
  fun_induction str l <;> simp_all <;> omega

/-- What is kept of a text. -/
def mini (l : List UInt8) : List UInt8 :=
  match l with
  | [] => []
  | c :: r =>
    if c = 0 then []
    else if c = 0x20 ∨ c = 9 ∨ c = 13 ∨ c = 10 then mini r
    else if c = 0x2F then
      match r with
      | [] => []
      | d :: r' =>
        if d = 0x2F then
          have := line_le r'
          mini (line r')
        else if d = 0x2A then
          have := block_le r'
          mini (block r')
        else mini (d :: r')
    else if c = 0x22 then
      have := str_le r
      c :: (str r).1 ++ mini (str r).2
    else c :: mini r
termination_by l.length

/-- Where things are: what was kept, then bytes that no longer matter, then what is still to be read. -/
structure At (m : List UInt8) (L i o : Nat) (O R : List UInt8) : Prop where
  oi : o ≤ i
  len : m.length = L
  il : i + R.length = L
  out : m.take o = O
  rest : m.drop i = R

theorem At.get {m : List UInt8} {L i o : Nat} {O R : List UInt8} (h : At m L i o O R) (k : Nat) : m[i + k]? = R[k]? := by
  rw [← h.rest, List.getElem?_drop]

theorem At.step {m : List UInt8} {L i o : Nat} {O R : List UInt8} {c : UInt8} (h : At m L i o O (c :: R)) : At m L (i + 1) o O R := by
  obtain ⟨h1, h2, h3, h4, h5⟩ := h
  refine ⟨by omega, h2, by simp at h3; omega, h4, ?_⟩
  have := List.drop_drop (l := m) (i := 1) (j := i)
  rw [h5] at this
  simpa [Nat.add_comm] using this.symm

theorem At.put {m : List UInt8} {L i o : Nat} {O R : List UInt8} {c : UInt8} (h : At m L i o O (c :: R)) (x : UInt8) :
    ∃ m', CJsonMinify.put m o x = some m' ∧ At m' L (i + 1) (o + 1) (O ++ [x]) R := by
  have hs := h.step
  obtain ⟨h1, h2, h3, h4, h5⟩ := h
  simp at h3
  have hlt : o < m.length := by omega
  refine ⟨m.set o x, by simp [CJsonMinify.put, hlt], by omega, by simp [h2], hs.il, ?_, ?_⟩
  · rw [List.take_add_one, List.take_set_of_le (Nat.le_refl _), h4]
    simp [hlt]
  · rw [List.drop_set_of_lt (by omega), hs.rest]

theorem skipLine_at {m : List UInt8} {L i o : Nat} {O R : List UInt8} (h : At m L i o O R) (hz : 0 ∈ R) :
    ∃ i', skipLine m i = some i' ∧ At m L i' o O (line R) ∧ 0 ∈ line R := by
  induction R generalizing i with
  | nil => cases hz
  | cons c R ih =>
    have hg := h.get 0
    have hlt : i < m.length := by have := h.il; have := h.len; simp at *; omega
    simp [hlt] at hg
    rw [skipLine.eq_def, dif_pos hlt, hg, line]
    by_cases h0 : c = 0
    · rw [if_pos h0, if_pos h0]; exact ⟨i, rfl, h, hz⟩
    · rw [if_neg h0, if_neg h0]
      have hz' : 0 ∈ R := by simpa [Ne.symm h0] using hz
      by_cases h10 : c = 10
      · rw [if_pos h10, if_pos h10]; exact ⟨_, rfl, h.step, hz'⟩
      · rw [if_neg h10, if_neg h10]; exact ih h.step hz'

theorem skipBlock_at {m : List UInt8} {L i o : Nat} {O R : List UInt8} (h : At m L i o O R) (hz : 0 ∈ R) :
    ∃ i', skipBlock m i = some i' ∧ At m L i' o O (block R) ∧ 0 ∈ block R := by
  induction R generalizing i with
  | nil => cases hz
  | cons c R ih =>
    have hg := h.get 0
    have hlt : i < m.length := by have := h.il; have := h.len; simp at *; omega
    simp [hlt] at hg
    rw [skipBlock.eq_def, dif_pos hlt, hg, block.eq_def]
    dsimp only
    by_cases h0 : c = 0
    · rw [if_pos h0, if_pos h0]; exact ⟨i, rfl, h, hz⟩
    · rw [if_neg h0, if_neg h0]
      have hz' : 0 ∈ R := by simpa [Ne.symm h0] using hz
      by_cases hs : c = 0x2A
      · rw [if_pos hs, if_pos hs, h.get 1]
        cases R with
        | nil => cases hz'
        | cons d R' =>
          simp only [List.getElem?_cons_succ, List.getElem?_cons_zero]
          by_cases hd : d = 0x2F
          · rw [if_pos hd, if_pos hd]
            exact ⟨_, rfl, h.step.step, by simpa [hd] using hz'⟩
          · rw [if_neg hd, if_neg hd]; exact ih h.step hz'
      · rw [if_neg hs, if_neg hs]; exact ih h.step hz'

theorem stringLoop_at : ∀ (n : Nat) {m : List UInt8} {L i o : Nat} {O R : List UInt8}, R.length ≤ n → At m L i o O R → 0 ∈ R →
    ∃ m' i' o', stringLoop m i o = some (m', i', o') ∧ At m' L i' o' (O ++ (str R).1) (str R).2 ∧ 0 ∈ (str R).2 := by
  intro n
  induction n with
  | zero => intro m L i o O R hn _ hz; cases R with | nil => cases hz | cons => simp at hn
  | succ n ih =>
    intro m L i o O R hn h hz
    cases R with
    | nil => cases hz
    | cons c R =>
      have hg := h.get 0
      have hlt : i < m.length := by have := h.il; have := h.len; simp at *; omega
      simp [hlt] at hg
      subst hg
      rw [stringLoop.eq_def, dif_pos hlt, str.eq_def]
      dsimp only
      by_cases h0 : m[i] = 0
      · rw [if_pos h0, if_pos h0]; exact ⟨m, i, o, rfl, by simpa using h, hz⟩
      rw [if_neg h0, if_neg h0]
      have hz' : 0 ∈ R := by simpa [Ne.symm h0] using hz
      obtain ⟨m1, e1, a1⟩ := h.put m[i]
      split
      · next e => rw [e1] at e; cases e
      next m1' e =>
      rw [e1] at e
      cases e
      simp at hn
      by_cases hq : m[i] = 0x22
      · rw [if_pos hq, if_pos hq]
        obtain ⟨h1, h2, h3, h4, h5⟩ := h
        have hm1 : m1 = m.set o m[i] := by unfold CJsonMinify.put at e1; split at e1 <;> cases e1; rfl
        have : CJsonMinify.put m1 o 0x22 = some m1 := by
          have ho : o < m.length := by omega
          rw [CJsonMinify.put, if_pos (by rw [a1.len, ← h2]; exact ho), hm1, hq, List.set_set]
        exact ⟨m1, i + 1, o + 1, by rw [this]; rfl, a1, hz'⟩
      rw [if_neg hq, if_neg hq]
      by_cases hb : m[i] = 0x5C
      · rw [if_pos hb, if_pos hb]
        have hg1 := a1.get 0
        rw [Nat.add_zero] at hg1
        rw [hg1]
        cases R with
        | nil => cases hz'
        | cons d R' =>
          simp only [List.getElem?_cons_zero]
          by_cases hd : d = 0x22
          · rw [if_pos hd, if_pos hd]
            obtain ⟨m2, e2, a2⟩ := a1.put d
            split
            · next e => rw [e2] at e; cases e
            next m2' e =>
            rw [e2] at e
            cases e
            have hz2 : 0 ∈ R' := by simpa [hd] using hz'
            obtain ⟨m', i', o', h1, h2, h3⟩ := ih (by simp at hn; omega) a2 hz2
            exact ⟨m', i', o', h1, by simpa using h2, h3⟩
          · rw [if_neg hd, if_neg hd]
            obtain ⟨m', i', o', h1, h2, h3⟩ := ih hn a1 hz'
            exact ⟨m', i', o', h1, by simpa using h2, h3⟩
      · rw [if_neg hb, if_neg hb]
        obtain ⟨m', i', o', h1, h2, h3⟩ := ih hn a1 hz'
        exact ⟨m', i', o', h1, by simpa using h2, h3⟩

theorem line_drop (R : List UInt8) : (line R).dropWhile (· ≠ 0) = R.dropWhile (· ≠ 0) := by
  fun_induction line R with
  | case1 => rfl
  | case2 => rfl
  | case3 => simp
  | case4 c r h0 h1 ih => rw [ih]; simp [h0]

theorem block_drop (R : List UInt8) : (block R).dropWhile (· ≠ 0) = R.dropWhile (· ≠ 0) := by
  fun_induction block R <;> simp_all

theorem str_drop (R : List UInt8) : (str R).2.dropWhile (· ≠ 0) = R.dropWhile (· ≠ 0) := by
  fun_induction str R <;> simp_all

theorem loop_at : ∀ (n fuel : Nat) {m : List UInt8} {L i o : Nat} {O R : List UInt8}, R.length ≤ n → n ≤ fuel → At m L i o O R → 0 ∈ R →
    ∃ m', loop fuel m i o = some m' ∧ m'.length = L ∧ (O ++ mini R ++ [0]) <+: m' ∧ (R.dropWhile (· ≠ 0)).tail <:+ m' := by
  intro n
  induction n with
  | zero => intro fuel m L i o O R hn _ _ hz; cases R with | nil => cases hz | cons => simp at hn
  | succ n ih =>
    intro fuel m L i o O R hn hf h hz
    cases R with
    | nil => cases hz
    | cons c R =>
      obtain ⟨fuel, rfl⟩ : ∃ k, fuel = k + 1 := ⟨fuel - 1, by omega⟩
      have hg := h.get 0
      rw [Nat.add_zero] at hg
      rw [loop, hg, mini.eq_def]
      simp only [List.getElem?_cons_zero]
      simp at hn
      by_cases h0 : c = 0
      · subst h0
        rw [if_pos rfl, if_pos rfl]
        obtain ⟨m', e, a⟩ := h.put 0
        refine ⟨m', e, a.len, ?_, ?_⟩
        · rw [List.append_nil, ← a.out]; exact List.take_prefix _ _
        · simp only [List.dropWhile, ne_eq, not_true_eq_false, decide_false, List.tail_cons]
          rw [← a.rest]; exact List.drop_suffix _ _
      rw [if_neg h0, if_neg h0]
      have hz' : 0 ∈ R := by simpa [Ne.symm h0] using hz
      have hdw : (c :: R).dropWhile (· ≠ 0) = R.dropWhile (· ≠ 0) := by simp [h0]
      rw [hdw]
      unfold turn
      by_cases hw : c = 0x20 ∨ c = 9 ∨ c = 13 ∨ c = 10
      · rw [if_pos hw, if_pos hw]
        exact ih fuel hn (by omega) h.step hz'
      rw [if_neg hw, if_neg hw]
      by_cases hs : c = 0x2F
      · rw [if_pos hs, if_pos hs, h.get 1]
        cases R with
        | nil => cases hz'
        | cons d R' =>
          simp only [List.getElem?_cons_succ, List.getElem?_cons_zero]
          by_cases hd : d = 0x2F
          · have hz2 : 0 ∈ R' := by simpa [hd] using hz'
            rw [if_pos hd, if_pos hd]
            obtain ⟨i', e, a, z⟩ := skipLine_at h.step.step hz2
            have hdd : (d :: R').dropWhile (· ≠ 0) = (line R').dropWhile (· ≠ 0) := by rw [line_drop]; simp [hd]
            rw [show i + 2 = i + 1 + 1 from rfl, e, hdd]
            exact ih fuel (by have := line_le R'; simp at hn; omega) (by omega) a z
          rw [if_neg hd, if_neg hd]
          by_cases hd2 : d = 0x2A
          · have hz2 : 0 ∈ R' := by simpa [hd2] using hz'
            rw [if_pos hd2, if_pos hd2]
            obtain ⟨i', e, a, z⟩ := skipBlock_at h.step.step hz2
            have hdd : (d :: R').dropWhile (· ≠ 0) = (block R').dropWhile (· ≠ 0) := by rw [block_drop]; simp [hd2]
            rw [show i + 2 = i + 1 + 1 from rfl, e, hdd]
            exact ih fuel (by have := block_le R'; simp at hn; omega) (by omega) a z
          · rw [if_neg hd2, if_neg hd2]
            exact ih fuel hn (by omega) h.step hz'
      rw [if_neg hs, if_neg hs]
      by_cases hq : c = 0x22
      · rw [if_pos hq, if_pos hq]
        obtain ⟨m1, e1, a1⟩ := h.put c
        obtain ⟨m2, i2, o2, e2, a2, z2⟩ := stringLoop_at R.length (Nat.le_refl _) a1 hz'
        have he : minifyString m i o = some (m2, i2, o2) := by
          unfold minifyString
          rw [hg]
          simp only [List.getElem?_cons_zero]
          rw [e1]; exact e2
        rw [he, ← str_drop]
        obtain ⟨m', e, hl, hp, hs⟩ := ih fuel (by have := str_le R; omega) (by omega) a2 z2
        exact ⟨m', e, hl, by simpa using hp, hs⟩
      · rw [if_neg hq, if_neg hq]
        obtain ⟨m1, e1, a1⟩ := h.put c
        rw [e1]
        obtain ⟨m', e, hl, hp, hs⟩ := ih fuel hn (by omega) a1 hz'
        exact ⟨m', e, hl, by simpa using hp, hs⟩

/-- Minifying in place: what is kept of the text, a zero byte, and behind the text nothing changed. -/
theorem minify_at (text post : List UInt8) (hz : 0 ∉ text) :
    ∃ m', minify (text ++ 0 :: post) = some m' ∧ m'.length = (text ++ 0 :: post).length ∧ (mini (text ++ 0 :: post) ++ [0]) <+: m' ∧ post <:+ m' := by
  obtain ⟨m', h1, h2, h3, h4⟩ := loop_at (text ++ 0 :: post).length ((text ++ 0 :: post).length + 1) (m := text ++ 0 :: post) (O := []) (Nat.le_refl _) (by omega)
    ⟨Nat.le_refl 0, rfl, by simp, by simp, by simp⟩ (by simp)
  refine ⟨m', h1, h2, by simpa using h3, ?_⟩
  have : (text ++ 0 :: post).dropWhile (· ≠ 0) = 0 :: post := by
    rw [List.dropWhile_append_of_pos]
    · simp
    · intro a ha; simpa using fun h : a = 0 => hz (h ▸ ha)
  rw [this] at h4
  exact h4

end Verif.CJsonMinify
