import Verif.Model.Recv
import Verif.Spec.Stream
namespace Verif
variable {σ ρ : Type} (f : σ → UInt8 → Step σ ρ)

theorem feed_append (s : σ) (a b : List UInt8) :
    feed f s (a ++ b) = match feed f s a with
      | .cont s' => feed f s' b
      | .stop r => .stop r := by
  induction a generalizing s with
  | nil => simp [feed]
  | cons x xs ih =>
    simp only [List.cons_append, feed]
    cases h : f s x with
    | cont s' => simp [ih]
    | stop r => simp

/-- The automaton stops before the receive buffer is full, on every prefix of `w`. -/
def Bounded (s : σ) (free : Nat) (w : List UInt8) : Prop :=
  ∀ p s', p <+: w → feed f s p = .cont s' → p.length < free

theorem Bounded.tail {s s' : σ} {free : Nat} {a b : List UInt8} (h : Bounded f s free (a ++ b))
    (ha : feed f s a = .cont s') : Bounded f s' (free - a.length) b := by
  intro p s'' hp hf
  have h1 : feed f s (a ++ p) = .cont s'' := by rw [feed_append, ha]; exact hf
  have := h (a ++ p) s'' (by simpa [List.prefix_append_right_inj] using hp) h1
  simp at this; omega

/-- What one invocation leads to, in terms of the stream. -/
theorem invoke_spec (s : σ) (free : Nat) (l : List Rx) (hb : Bounded f s free (streamOf l)) :
    match invoke f s free l with
    | .stopped r => feed f s (streamOf l) = .stop r
    | .waiting s' free' rest => ∃ a, streamOf l = a ++ streamOf rest ∧ feed f s a = .cont s' ∧
        free' = free - a.length ∧ failsAtEnd l = failsAtEnd rest ∧ (rest.length < l.length ∨ l = [])
    | .closed => failsAtEnd l = true ∧ ∃ s', feed f s (streamOf l) = .cont s'
    | .aborted => False := by
  fun_induction invoke f s free l with
  | case1 s free => exact ⟨[], by simp [streamOf, feed]⟩
  | case2 s free t => exact ⟨[], by simp [streamOf, feed, failsAtEnd]⟩
  | case3 s free t => simp [streamOf, failsAtEnd, feed]
  | case4 s b bs t => have := hb [] s (by simp) (by simp [feed]); simp at this
  | case5 s free b bs t hf r hr =>
    simp only [streamOf]
    rw [← List.take_append_drop free (b :: bs), List.append_assoc, feed_append, hr]
  | case6 s free b bs t hf s' hc hd ih =>
    have ht : (b :: bs).take free = b :: bs := List.take_of_length_le (by
      have := List.drop_eq_nil_iff.mp hd; exact this)
    rw [ht] at hc
    have hb' : Bounded f s' (free - (bs.length + 1)) (streamOf t) :=
      Bounded.tail f (a := b :: bs) (b := streamOf t) hb hc
    have := ih hb'
    revert this
    split
    · intro h; simp only [streamOf]; rw [feed_append, hc]; exact h
    · rintro ⟨a, h1, h2, h3, h4, h5⟩
      refine ⟨b :: bs ++ a, by simp [streamOf, h1], by rw [feed_append, hc]; exact h2, by simp; omega, by simp [failsAtEnd, h4], ?_⟩
      left; rcases h5 with h | h
      · simp; omega
      · subst h; simp_all [invoke]
    · rintro ⟨h1, s'', h2⟩; refine ⟨by simpa [failsAtEnd] using h1, s'', ?_⟩
      simp only [streamOf]; rw [feed_append, hc]; exact h2
    · exact id
  | case7 s free b bs t hf s' hc c cs hd ih =>
    exfalso
    have := hb ((b :: bs).take free) s' (by
      simp only [streamOf]
      exact (List.take_prefix _ _).trans (List.prefix_append _ _)) hc
    have h2 : free < (b :: bs).length := by
      have : ((b::bs).drop free).length = (c::cs).length := by rw [hd]
      simp only [List.length_drop, List.length_cons] at this ⊢; omega
    simp only [List.length_take] at this; omega

/-- The whole history on a connection is determined by its byte stream alone. -/
theorem drive_spec (s : σ) (free : Nat) (l : List Rx) (hb : Bounded f s free (streamOf l)) :
    drive f s free l = match feed f s (streamOf l) with
      | .stop r => .stopped r
      | .cont s' => if failsAtEnd l then .closed else .waiting s' (free - (streamOf l).length) [] := by
  induction hn : l.length using Nat.strongRecOn generalizing s free l with
  | _ n ih =>
    have hi := invoke_spec f s free l hb
    rw [drive]
    split
    next s' free' x rest heq =>
      rw [heq] at hi
      obtain ⟨a, h1, h2, h3, h4, h5⟩ := hi
      have hlt : (x :: rest).length < l.length := by
        rcases h5 with h | h
        · exact h
        · subst h; simp [invoke] at heq
      rw [if_pos hlt]
      subst h3
      rw [ih _ (by omega) s' _ (x :: rest) (Bounded.tail f (by rw [← h1]; exact hb) h2) rfl]
      rw [h1, feed_append, h2, h4]
      simp [Nat.sub_sub]
    next o hne =>
      revert hi hne
      cases h : invoke f s free l with
      | stopped r => intro hi _; simp only at hi; rw [hi]
      | waiting s' free' rest =>
        intro hi hne
        obtain ⟨a, h1, h2, h3, h4, h5⟩ := hi
        cases rest with
        | cons x r => exact absurd rfl (hne _ _ _ _)
        | nil =>
          simp [streamOf] at h1
          rw [h1, h2, h4]; simp [failsAtEnd, h3]
      | closed => rintro ⟨h1, s', h2⟩ _; rw [h2, h1]; simp
      | aborted => intro hi; exact absurd hi id
end Verif
