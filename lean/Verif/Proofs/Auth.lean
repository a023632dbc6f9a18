import Verif.Proofs.Aho
import Verif.Proofs.Tunnel
import Verif.Spec.Auth
/-
Lemmas about the authorisation step.
-/
namespace Verif.Auth
open Verif Verif.Aho

/-- The receive loop delivers exactly the stream so far, once the header is complete. -/
theorem authRecv_spec (buf : List UInt8) (l : List Rx) (hb : buf.length ≤ Tunnel.cap) :
    match authRecv buf l with
    | .have_ buf' rest => hdrLen ≤ buf'.length ∧ buf <+: buf' ∧ buf' ++ streamOf rest = buf ++ streamOf l
    | _ => (buf ++ streamOf l).length < hdrLen := by
  fun_induction authRecv buf l with
  | case1 buf l h => exact ⟨h, List.prefix_rfl, rfl⟩
  | case2 buf h => simp [streamOf]; omega
  | case3 buf h t ih => simpa [streamOf] using ih hb
  | case4 buf h t => simp [streamOf]; omega
  | case5 buf h b bs t n hn ih =>
    have hl : (buf ++ b :: bs).length ≤ Tunnel.cap := by
      simp only [List.length_append, List.length_cons, n] at hn ⊢; omega
    have := ih hl
    have e : buf ++ streamOf (.data b bs :: t) = (buf ++ b :: bs) ++ streamOf t := by simp [streamOf]
    rw [e]
    revert this
    cases authRecv (buf ++ b :: bs) t with
    | have_ b' r =>
      rintro ⟨h1, h2, h3⟩
      exact ⟨h1, (List.prefix_append _ _).trans h2, h3⟩
    | waiting => exact id
    | closed => exact id
  | case6 buf h b bs t n hn =>
    refine ⟨?_, List.prefix_append _ _, ?_⟩
    · simp only [List.length_append, List.length_take, List.length_cons, n, hdrLen, Tunnel.cap] at hn h hb ⊢; omega
    · rw [List.append_assoc, Tunnel.streamOf_pushBack]

theorem authRecv_cases (l : List Rx) :
    (∃ buf rest, authRecv [] l = .have_ buf rest ∧ hdrLen ≤ buf.length ∧ buf ++ streamOf rest = streamOf l) ∨
    ((authRecv [] l = .waiting ∨ authRecv [] l = .closed) ∧ (streamOf l).length < hdrLen) := by
  have h := authRecv_spec [] l (by simp)
  cases e : authRecv [] l with
  | have_ buf rest => rw [e] at h; exact Or.inl ⟨buf, rest, rfl, h.1, by simpa using h.2.2⟩
  | waiting => rw [e] at h; exact Or.inr ⟨Or.inl rfl, by simpa using h⟩
  | closed => rw [e] at h; exact Or.inr ⟨Or.inr rfl, by simpa using h⟩

/-- The loaded matcher is complete. -/
theorem load_ready {keys : List (List UInt8)} {m : Matcher} (hsz : keys.flatten.length ≤ 4096) (h : load keys = .ok m) :
    m.trie = addAll keys ∧ m.cur = [] ∧ Ready m.trie m.fails := by
  unfold load at h
  rcases compile_spec (addAll_ok keys) (Nat.le_trans (nodes_length keys) hsz) with hc | ⟨fs, hc, hf, ht⟩
  · rw [hc] at h; cases h
  · rw [hc] at h
    cases h
    exact ⟨rfl, rfl, addAll_ok keys, hf, ht⟩

theorem next_trie (m : Matcher) (v : Verdict) : (v.next m).trie = m.trie ∧ (v.next m).fails = m.fails := by
  cases v <;> exact ⟨rfl, rfl⟩

/-- One attempt on a complete matcher. -/
theorem authChk_spec {m : Matcher} (hr : Ready m.trie m.fails) (hc : m.cur = [] ∨ m.cur ∈ m.trie.nodes) (l : List Rx)
    (acc : List Nat) (hacc : m.cur.reverse.Sublist acc) :
    let v := authChk m l
    let m' := v.next m
    (m'.cur = [] ∨ m'.cur ∈ m.trie.nodes) ∧
    (v.isAdmitted = true → m'.cur = [] ∧
      ∃ p ∈ m.trie.terms, p ∈ m.trie.nodes ∧ p.reverse.Sublist (acc ++ (presented l).map idx)) ∧
    (v.isAdmitted = false → m'.cur.reverse.Sublist (acc ++ (presented l).map idx)) := by
  have hmono : ∀ x : List Nat, (m.cur.reverse ++ x).Sublist (acc ++ x) := fun x => List.Sublist.append hacc (List.Sublist.refl _)
  unfold authChk presented
  cases hrx : authRecv [] l with
  | waiting => simp [Verdict.next, Verdict.isAdmitted, hc, hacc]
  | closed => simp [Verdict.next, Verdict.isAdmitted, hc, hacc]
  | have_ buf rest =>
    simp only [authJudge]
    by_cases hm : buf.take 4 = magic
    · simp only [if_pos hm]
      obtain ⟨v, c, h1, h2, h3, h4⟩ := find_spec hr m.cur hc (keyText buf)
      rw [h1]
      cases v with
      | match_ =>
        obtain ⟨h5, p, h6, h7, h8⟩ := h4 rfl
        exact ⟨h2, fun _ => ⟨h5, p, h6, h7, h8.trans (hmono _)⟩, fun h => by simp [Verdict.isAdmitted] at h⟩
      | noMatch =>
        exact ⟨h2, fun h => by simp [Verdict.isAdmitted] at h, fun _ => (h3 rfl).trans (hmono _)⟩
    · simp only [if_neg hm]
      exact ⟨hc, fun h => by simp [Verdict.isAdmitted] at h, fun _ => by simpa [Verdict.next] using hacc⟩

end Verif.Auth
