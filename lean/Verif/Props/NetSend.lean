import Verif.Proofs.NetSend
import Verif.Spec.Stream
/-
Property C19: chained sends.
-/
namespace Verif.Net
open Verif

/-- C19. Over any number of resumed calls, what the kernel accepted followed by what is still unsent is the original content
of the chain; in particular the accepted bytes are a prefix of it. -/
theorem c19_chain_order (chain : List (List UInt8)) (l : List SysTx) :
    (sendChainsAll chain l).wire ++ (sendChainsAll chain l).chain.flatten = chain.flatten :=
  (sendChainsAll_spec chain l).1

/-- Case: three buffers, a partial send, then the socket is full. -/
example : sendChainsAll [[1, 2, 3], [], [4, 5]] [.ok 2, .eagain] = ⟨.again, [[3], [], [4, 5]], [1, 2], []⟩ := by
  simp [sendChainsAll, sendChains, firstUnsent, sends]

/-- C19. Completion is reported exactly when every byte was accepted. -/
theorem c19_done_iff_all_sent (chain : List (List UInt8)) (l : List SysTx) :
    (sendChainsAll chain l).rc = .done ↔ (sendChainsAll chain l).wire = chain.flatten := by
  obtain ⟨h1, h2, -⟩ := sendChainsAll_spec chain l
  rw [h2]
  constructor
  · intro h; rw [h, List.append_nil] at h1; exact h1
  · intro h; rw [h] at h1; simpa using h1

/-- C19. The same for a single call. -/
theorem c19_single_call (chain : List (List UInt8)) (l : List SysTx) :
    (sendChains chain l).wire ++ (sendChains chain l).chain.flatten = chain.flatten ∧
    ((sendChains chain l).rc = .done ↔ (sendChains chain l).wire = chain.flatten) := by
  obtain ⟨h1, h2, -⟩ := sendChains_spec chain l
  refine ⟨h1, ?_⟩
  rw [h2]
  constructor
  · intro h; rw [h, List.append_nil] at h1; exact h1
  · intro h; rw [h] at h1; simpa using h1

/-- Case: one call sends what it can. -/
example : sendChains [[1, 2], [3]] [.ok 1, .ok 1, .eintr, .ok 1] = ⟨.done, [[], []], [1, 2, 3], []⟩ := by
  simp [sendChains, firstUnsent, sends]

/-- A system call result that lets a send make progress or wait. -/
def SysTx.good : SysTx → Bool
  | .ok n => 0 < n
  | .eagain => true
  | .eintr => true
  | .err => false

/-- C19. Progress: a socket that keeps accepting data (at least one byte per successful call, at least as many successful calls as
bytes) gets the whole chain, and completion is reported. -/
theorem c19_progress (chain : List (List UInt8)) (l : List SysTx) (hg : l.all SysTx.good = true)
    (hn : chain.flatten.length ≤ (l.filter (fun x => match x with | .ok _ => true | _ => false)).length) :
    (sendChainsAll chain l).rc = .done := by
  have hs : ∀ (len : Nat) (l : List SysTx), l.all SysTx.good = true →
      (sends len l).2.all SysTx.good = true ∧
      match sends len l with
      | (.sent n, r) => (∃ m, 0 < m ∧ n = min m len) ∧
          (l.filter (fun x => match x with | .ok _ => true | _ => false)).length =
          (r.filter (fun x => match x with | .ok _ => true | _ => false)).length + 1
      | (.again, r) => (l.filter (fun x => match x with | .ok _ => true | _ => false)).length =
          (r.filter (fun x => match x with | .ok _ => true | _ => false)).length
      | (.fail, _) => False := by
    intro len l
    induction l with
    | nil => simp [sends]
    | cons x t ih =>
      intro h
      simp only [List.all_cons, Bool.and_eq_true] at h
      cases x with
      | ok n => simp only [sends]; refine ⟨h.2, ⟨n, by simpa [SysTx.good] using h.1, rfl⟩, by simp⟩
      | eagain => simp only [sends]; exact ⟨h.2, by simp⟩
      | eintr => simpa [sends] using ih h.2
      | err => simp [SysTx.good] at h
  have h1 : ∀ (chain : List (List UInt8)) (l : List SysTx), l.all SysTx.good = true →
      chain.flatten.length ≤ (l.filter (fun x => match x with | .ok _ => true | _ => false)).length →
      match sendChains chain l with
      | ⟨.done, _, _, _⟩ => True
      | ⟨.again, c, _, r⟩ => r.all SysTx.good = true ∧
          c.flatten.length ≤ (r.filter (fun x => match x with | .ok _ => true | _ => false)).length
      | ⟨.fail, _, _, _⟩ => False := by
    intro chain l
    fun_induction sendChains chain l with
    | case1 => intros; trivial
    | case2 c l p x q hc r h =>
      intro hg hn
      have := hs x.length l hg
      rw [h] at this
      refine ⟨this.1, ?_⟩
      have h2 := this.2
      simp only at h2
      omega
    | case3 c l p x q hc r h =>
      intro hg hn
      have := hs x.length l hg
      rw [h] at this
      exact absurd this.2 id
    | case4 c l p x q hc n r h o ih =>
      intro hg hn
      have := hs x.length l hg
      rw [h] at this
      obtain ⟨hr, ⟨m, hm, hnm⟩, hcount⟩ := this
      obtain ⟨hcc, hp, hx⟩ := firstUnsent_some hc
      have hxl : 0 < x.length := List.length_pos_iff.mpr hx
      have := ih hr (by
        rw [hcc] at hn
        simp only [List.flatten_append, hp, List.flatten_cons, List.nil_append, List.length_append,
          List.length_drop] at hn ⊢
        omega)
      revert this
      simp only [o]
      generalize sendChains (p ++ x.drop n :: q) r = oo
      obtain ⟨rc, c', w', r'⟩ := oo
      cases rc <;> exact id
  fun_induction sendChainsAll chain l with
  | case1 c l c' w x r h hlt o ih =>
    have := h1 c l hg hn
    rw [h] at this
    exact ih this.1 this.2
  | case2 c l c' w x r h hlt =>
    have hsp := sendChains_spec c l
    rw [h] at hsp
    rcases hsp.2.2.1 (by simp) with h' | h'
    · exact absurd h' hlt
    · subst h'; have := hsp.2.2.2; simp at this
  | case3 c l hne =>
    have := h1 c l hg hn
    have hsp := sendChains_spec c l
    generalize sendChains c l = o at *
    obtain ⟨rc, c', w, r⟩ := o
    cases rc with
    | done => rfl
    | fail => exact absurd this id
    | again =>
      cases r with
      | cons x r => exact absurd rfl (hne _ _ _ _)
      | nil =>
        have h3 := this.2
        simp only [List.filter_nil, List.length_nil, Nat.le_zero] at h3
        have h4 := hsp.2.1
        simp only [reduceCtorEq, false_iff] at h4
        exact absurd (List.length_eq_zero_iff.mp h3) h4

/-- Case for `c19_done_iff_all_sent`: three buffers, two waits and an interrupt. -/
example : sendChainsAll [[1, 2, 3], [], [4, 5]] [.ok 2, .eagain, .eintr, .ok 9, .eagain, .ok 1, .ok 1] =
    ⟨.done, [[], [], []], [1, 2, 3, 4, 5], []⟩ := by
  simp [sendChainsAll, sendChains, firstUnsent, sends]

/-- Interrupted receives are invisible: the handler sees the same stream. -/
theorem c19_eintr_invisible (a b : List SysRx) : streamOf (recvs (a ++ .eintr :: b)) = streamOf (recvs (a ++ b)) := by
  induction a with
  | nil => simp [recvs]
  | cons x a ih => cases x <;> simp [recvs, streamOf, ih]

/-- What a handler sees of any sequence of receive calls: the segments in order; a wait for every time the socket had nothing, nothing for an interrupted call, and a failure for every
other result, the end of the stream included. -/
theorem c19_receive (l : List SysRx) :
    (recvs l).filterMap (fun r => match r with | .data b bs => some (b :: bs) | _ => none) = l.filterMap (fun r => match r with | .data b bs => some (b :: bs) | _ => none) ∧
      (recvs l).count .again = l.count .eagain ∧ (recvs l).count .fail = l.count .eof + l.count .err ∧ (recvs l).length + l.count .eintr = l.length ∧
      ∀ k, (∀ x ∈ l.take k, x ≠ .eintr) → (recvs l).take k = recvs (l.take k) := by
  induction l with
  | nil => simp [recvs]
  | cons x l ih =>
    obtain ⟨h1, h2, h3, h4, h5⟩ := ih
    refine ⟨?_, ?_, ?_, ?_, ?_⟩
    · cases x <;> simp [recvs, h1]
    · cases x <;> simp [recvs, h2]
    · cases x <;> simp [recvs, h3] <;> omega
    · cases x <;> simp [recvs] <;> omega
    · intro k hk
      cases k with
      | zero => simp [recvs]
      | succ k =>
        have hx : x ≠ .eintr := hk x (by simp)
        have := h5 k (fun y hy => hk y (by simp [hy]))
        cases x with
        | eintr => exact absurd rfl hx
        | _ => simp [recvs, this]

/-- Case: data, an interrupt, a wait, more data, the end of the stream. -/
example : recvs [.data 1 [2], .eintr, .eagain, .data 3 [], .eof] = [.data 1 [2], .again, .data 3 [], .fail] := by decide

/-- Case: an interrupt between two segments. -/
example : streamOf (recvs [.data 1 [2], .eintr, .data 3 []]) = [1, 2, 3] := by decide

end Verif.Net
