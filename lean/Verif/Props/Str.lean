import Verif.Model.Str
/-
Property C45: substring search.
-/
namespace Verif.Str

/-- The pattern occurs in the text at position `i`. -/
def OccursAt (text pat : List UInt8) (i : Nat) : Prop := pat <+: text.drop i ∧ i + pat.length ≤ text.length

/-- What C45 says about a result: the first occurrence, or none. -/
def Right (text pat : List UInt8) : Out → Prop
  | .found i => OccursAt text pat i ∧ ∀ j, j < i → ¬OccursAt text pat j
  | .absent => ∀ j, ¬OccursAt text pat j
  | _ => False

theorem cmp_true {m p : List UInt8} : cmp m p = some true ↔ p <+: m := by
  induction p generalizing m with
  | nil => cases m <;> simp [cmp]
  | cons b p ih =>
    cases m with
    | nil => simp [cmp]
    | cons a m =>
      simp only [cmp]
      split
      · rename_i e; subst e; rw [ih]; simp [List.cons_prefix_cons]
      · rename_i e
        simp only [Option.some.injEq, Bool.false_eq_true, false_iff, List.cons_prefix_cons, not_and]
        intro h; exact absurd h.symm e

/-- If the memory goes on, after the text, with a byte that is not in the pattern, the comparison ends inside the text or at that byte. -/
theorem cmp_stop {text pat rest : List UInt8} {b : UInt8} (hb : b ∉ pat) :
    cmp (text ++ b :: rest) pat = some (decide (pat <+: text)) := by
  induction pat generalizing text with
  | nil => cases text <;> simp [cmp]
  | cons c p ih =>
    simp only [List.mem_cons, not_or] at hb
    cases text with
    | nil =>
      simp only [List.nil_append, cmp]
      rw [if_neg hb.1]
      simp
    | cons a t =>
      simp only [List.cons_append, cmp]
      split
      · rename_i e; subst e; rw [ih hb.2]; simp [List.cons_prefix_cons]
      · rename_i e
        have : ¬ (c :: p <+: a :: t) := by rw [List.cons_prefix_cons]; exact fun h => e h.1.symm
        simp [this]

/-- C45 (partial): if the byte after the text is readable and does not occur in the pattern (for example a terminating NUL), and the pattern is
neither empty nor longer than the text, the search returns the first occurrence inside the text or reports that there is none. -/
theorem c45_first_partial (text pat rest : List UInt8) (b : UInt8) (hb : b ∉ pat) (hp : pat ≠ []) (hl : pat.length ≤ text.length) :
    Right text pat (find (text ++ b :: rest) text.length pat) := by
  have hpl := List.length_pos_iff.mpr hp
  unfold find
  rw [if_pos ⟨by omega, hpl, hl⟩]
  -- `pre` is what was scanned already
  have key : ∀ (t pre : List UInt8), text = pre ++ t → (∀ j, j < pre.length → ¬OccursAt text pat j) →
      Right text pat (scan pat t.length pre.length (t ++ b :: rest)) := by
    intro t
    induction t with
    | nil =>
      intro pre ht hno
      intro j hj
      by_cases hlt : j < pre.length
      · exact hno j hlt hj
      · have := hj.2
        rw [ht] at this
        simp only [List.append_nil] at this
        omega
    | cons a t ih =>
      intro pre ht hno
      simp only [List.length_cons, List.cons_append, scan]
      have hocc : OccursAt text pat pre.length ↔ pat <+: a :: t := by
        unfold OccursAt
        rw [ht, List.drop_left]
        refine ⟨fun h => h.1, fun h => ⟨h, ?_⟩⟩
        have := h.length_le
        simp only [List.length_append]; omega
      have next : ¬OccursAt text pat pre.length → Right text pat (scan pat t.length (pre.length + 1) (t ++ b :: rest)) := by
        intro hn
        have := ih (pre ++ [a]) (by rw [ht]; simp) (by
          intro j hj
          simp only [List.length_append, List.length_singleton] at hj
          rcases Nat.lt_or_ge j pre.length with hlt | hge
          · exact hno j hlt
          · have : j = pre.length := by omega
            rw [this]; exact hn)
        simpa using this
      split
      · rw [← List.cons_append, cmp_stop hb]
        by_cases ho : pat <+: a :: t
        · simp only [ho, decide_true]
          exact ⟨hocc.mpr ho, hno⟩
        · simp only [ho, decide_false]
          exact next (fun h => ho (hocc.mp h))
      · rename_i hh
        refine next (fun h => hh ?_)
        have := hocc.mp h
        cases pat with
        | nil => simp at hp
        | cons c p => rw [List.cons_prefix_cons] at this; simp [this.1]
  have := key text [] rfl (by intro j hj; simp at hj)
  simpa using this

/-- Case for `c45_first_partial`: "b" "c" occurs at 1 and 3 in "abcbc". -/
example : find ([97, 98, 99, 98, 99] ++ [0]) 5 [98, 99] = .found 1 := by decide
example : find ([97, 98, 99, 98, 98] ++ [0]) 5 [98, 97] = .absent := by decide

/-- C45 is false of the code: a pattern longer than the text, an empty text or an empty pattern aborts the program. -/
theorem c45_abort_counterexample (mem pat : List UInt8) (n : Nat) (h : n < pat.length ∨ n = 0 ∨ pat = []) : find mem n pat = .abort := by
  unfold find
  rw [if_neg]
  rintro ⟨h1, h2, h3⟩
  rcases h with h | h | h
  · omega
  · omega
  · rw [h] at h2; simp at h2

/-- Case: looking for three bytes in two. -/
example : find [97, 98, 0] 2 [97, 98, 99] = .abort := c45_abort_counterexample _ _ _ (.inl (by decide))

/-- C45 is false of the code: a match that begins in the text and ends behind it is reported, although the text does not contain the pattern. -/
theorem c45_beyond_counterexample (w u v : UInt8) (h : w ≠ u) (rest : List UInt8) :
    find (w :: u :: v :: rest) 2 [u, v] = .found 1 ∧ ∀ j, ¬OccursAt [w, u] [u, v] j := by
  constructor
  · simp [find, scan, cmp, h]
  · rintro j ⟨h1, h2⟩
    simp at h2
    have : j = 0 := by omega
    subst this
    simp [List.cons_prefix_cons] at h1
    exact h h1.1.symm

/-- Case: "bc" is found in "ab", the byte behind it being "c". -/
example : find [97, 98, 99] 2 [98, 99] = .found 1 := (c45_beyond_counterexample 97 98 99 (by decide) []).1

/-- C45 is false of the code: memory behind the text is read. -/
theorem c45_read_counterexample (w u v : UInt8) (h : w ≠ u) : find [w, u] 2 [u, v] = .oob := by
  simp [find, scan, cmp, h]

/-- Case: the same without a byte behind. -/
example : find [97, 98] 2 [98, 99] = .oob := c45_read_counterexample 97 98 99 (by decide)

end Verif.Str
