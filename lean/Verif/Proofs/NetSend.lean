import Verif.Model.NetSend
import Verif.Model.Socks5
namespace Verif.Net
open Verif

theorem firstUnsent_none {c : List (List UInt8)} : firstUnsent c = none ↔ c.flatten = [] := by
  induction c with
  | nil => simp [firstUnsent]
  | cons x c ih =>
    cases x with
    | nil => simp [firstUnsent, ih]
    | cons b bs => simp [firstUnsent]

theorem firstUnsent_some {c p q : List (List UInt8)} {x : List UInt8} (h : firstUnsent c = some (p, x, q)) :
    c = p ++ x :: q ∧ p.flatten = [] ∧ x ≠ [] := by
  induction c generalizing p with
  | nil => simp [firstUnsent] at h
  | cons y c ih =>
    cases y with
    | nil =>
      simp only [firstUnsent, Option.map_eq_some_iff] at h
      obtain ⟨⟨p', x', q'⟩, h1, h2⟩ := h
      simp only [Prod.mk.injEq] at h2
      obtain ⟨rfl, rfl, rfl⟩ := h2
      obtain ⟨h3, h4, h5⟩ := ih h1
      exact ⟨by rw [h3]; rfl, by simpa using h4, h5⟩
    | cons b bs =>
      simp only [firstUnsent, Option.some.injEq, Prod.mk.injEq] at h
      obtain ⟨rfl, rfl, rfl⟩ := h
      simp

theorem sendChains_spec (c : List (List UInt8)) (l : List SysTx) :
    (sendChains c l).wire ++ (sendChains c l).chain.flatten = c.flatten ∧
    ((sendChains c l).rc = .done ↔ (sendChains c l).chain.flatten = []) ∧
    ((sendChains c l).rc ≠ .done → (sendChains c l).rest.length < l.length ∨ l = []) ∧
    (sendChains c l).rest.length ≤ l.length := by
  fun_induction sendChains c l with
  | case1 c l h => simp [firstUnsent_none.mp h]
  | case2 c l p x q hc r hs =>
    obtain ⟨h1, h2, h3⟩ := firstUnsent_some hc
    have h4 : c.flatten ≠ [] := by rw [h1]; simp [h2, h3]
    refine ⟨by simp, by simpa using h4, ?_, ?_⟩
    · intro _
      by_cases hl : l = []
      · exact .inr hl
      · left; have := sends_rest_length x.length l hl; rw [hs] at this; exact this
    · by_cases hl : l = []
      · subst hl; simp [sends] at hs; simp [← hs]
      · have := sends_rest_length x.length l hl; rw [hs] at this; exact Nat.le_of_lt this
  | case3 c l p x q hc r hs =>
    obtain ⟨h1, h2, h3⟩ := firstUnsent_some hc
    have h4 : c.flatten ≠ [] := by rw [h1]; simp [h2, h3]
    have hl : l ≠ [] := by rintro rfl; simp [sends] at hs
    have := sends_rest_length x.length l hl; rw [hs] at this
    exact ⟨by simp, by simpa using h4, fun _ => .inl this, Nat.le_of_lt this⟩
  | case4 c l p x q hc n r hs o ih =>
    obtain ⟨h1, h2, h3⟩ := firstUnsent_some hc
    have hl : l ≠ [] := by rintro rfl; simp [sends] at hs
    have hlt := sends_rest_length x.length l hl; rw [hs] at hlt; simp only at hlt
    obtain ⟨i1, i2, i3, i4⟩ := ih
    refine ⟨?_, i2, ?_, by simp only [o]; omega⟩
    · simp only [o, List.append_assoc]
      rw [i1, h1]; simp only [List.flatten_append, h2, List.flatten_cons, List.nil_append]
      rw [← List.append_assoc, List.take_append_drop]
    · intro hne; left; simp only [o]; omega

theorem sendChainsAll_spec (c : List (List UInt8)) (l : List SysTx) :
    (sendChainsAll c l).wire ++ (sendChainsAll c l).chain.flatten = c.flatten ∧
    ((sendChainsAll c l).rc = .done ↔ (sendChainsAll c l).chain.flatten = []) ∧
    ((sendChainsAll c l).rc = .again → (sendChainsAll c l).rest = []) := by
  fun_induction sendChainsAll c l with
  | case1 c l c' w x r h hlt o ih =>
    have hs := sendChains_spec c l
    rw [h] at hs
    refine ⟨?_, ih.2.1, ih.2.2⟩
    simp only [o, List.append_assoc]; rw [ih.1]; exact hs.1
  | case2 c l c' w x r h hlt =>
    have hs := sendChains_spec c l
    rw [h] at hs
    have := hs.2.2.1 (by simp)
    rcases this with h' | h'
    · exact absurd h' hlt
    · subst h'; have := hs.2.2.2; simp at this
  | case3 c l hne =>
    have hs := sendChains_spec c l
    refine ⟨hs.1, hs.2.1, ?_⟩
    intro ha
    cases hr : (sendChains c l).rest with
    | nil => rfl
    | cons x r =>
      exfalso
      generalize ho : sendChains c l = o at *
      obtain ⟨rc, ch, w, rest⟩ := o
      simp only at ha hr
      subst ha; subst hr
      exact hne _ _ _ _ rfl
end Verif.Net

namespace Verif.S5
open Verif Verif.Net

theorem rsp_spec (wire buf : List UInt8) (l : List Tx) :
    match rsp wire buf l with
    | .done w _ => w = wire ++ buf
    | .again w u r => w ++ u = wire ++ buf ∧ u ≠ [] ∧ (r.length < l.length ∨ l = []) ∧ (l = [] → r = [])
    | .closed w => w <+: wire ++ buf := by
  fun_induction rsp wire buf l with
  | case1 => simp
  | case2 => simp
  | case3 => simp
  | case4 => simp
  | case5 wire b bs n t ih =>
    revert ih
    split
    · intro h; rw [h]; simp [List.append_assoc, List.take_append_drop]
    · rintro ⟨h1, h2, h3, h4⟩
      refine ⟨?_, h2, ?_, by simp⟩
      · rw [h1, List.append_assoc, List.take_append_drop]
      · left; rcases h3 with h | h
        · simp; omega
        · subst h; simp [h4 rfl]
    · intro h; rw [List.append_assoc, List.take_append_drop] at h; exact h

theorem rspAll_spec (wire buf : List UInt8) (l : List Tx) :
    match rspAll wire buf l with
    | .done w _ => w = wire ++ buf
    | .again w u r => w ++ u = wire ++ buf ∧ u ≠ [] ∧ r = []
    | .closed w => w <+: wire ++ buf := by
  fun_induction rspAll wire buf l with
  | case1 wire buf l w u x r h hlt ih =>
    have hs := rsp_spec wire buf l
    rw [h] at hs
    rw [hs.1] at ih; exact ih
  | case2 wire buf l w u x r h hlt =>
    have hs := rsp_spec wire buf l
    rw [h] at hs
    rcases hs.2.2.1 with h' | h'
    · exact absurd h' hlt
    · have := hs.2.2.2 h'; simp at this
  | case3 wire buf l hne =>
    have hs := rsp_spec wire buf l
    generalize rsp wire buf l = o at *
    cases o with
    | done w r => exact hs
    | again w u r =>
      cases r with
      | nil => exact ⟨hs.1, hs.2.1, rfl⟩
      | cons x r => exact absurd rfl (hne _ _ _ _)
    | closed w => exact hs
end Verif.S5
