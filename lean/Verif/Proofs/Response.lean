import Verif.Spec.Response
import Verif.Model.WebRsp
import Verif.Proofs.Printf
namespace Verif.RspSpec
open DateSpec (ascii number)

theorem line_append {l : List UInt8} (h : 13 ∉ l) (r : List UInt8) : line (l ++ 13 :: 10 :: r) = some (l, r) := by
  induction l with
  | nil => rw [List.nil_append, line]
  | cons b t ih =>
    simp only [List.mem_cons, not_or] at h
    rw [List.cons_append, line]
    · rw [ih h.2]; rfl
    · intro r' hb; exact absurd hb.symm h.1

/-- Reading more of the stream does not change a line already read. -/
theorem line_more {l x r : List UInt8} (h : line l = some (x, r)) (y : List UInt8) : line (l ++ y) = some (x, r ++ y) := by
  fun_induction line l generalizing x r with
  | case1 => simp at h
  | case2 r' =>
    simp only [Option.some.injEq, Prod.mk.injEq] at h
    obtain ⟨rfl, rfl⟩ := h
    simp only [List.cons_append, line]
  | case3 b r' hne ih =>
    cases hl : line r' with
    | none => simp [hl] at h
    | some z =>
      simp only [hl, Option.map_some, Option.some.injEq, Prod.mk.injEq] at h
      have := ih hl
      rw [List.cons_append, line]
      · rw [this]; simp [h.1, h.2]
      · rintro r'' rfl e
        cases r' with
        | nil => simp [line] at hl
        | cons c t =>
          simp only [List.cons_append, List.cons.injEq] at e
          exact hne t rfl (by rw [e.1])

theorem fields_more {l : List UInt8} {fs : List (List UInt8 × List UInt8)} {r : List UInt8} (h : fields l = some (fs, r)) (y : List UInt8) :
    fields (l ++ y) = some (fs, r ++ y) := by
  fun_induction fields l generalizing fs r with
  | case1 => simp at h
  | case2 l r' hl =>
    simp only [Option.some.injEq, Prod.mk.injEq] at h
    rw [fields.eq_def]
    split
    · rename_i e; rw [line_more hl] at e; simp at e
    · rename_i e; rw [line_more hl] at e; simp at e; rw [← e, ← h.2, ← h.1]
    · rename_i e; rw [line_more hl] at e; simp at e
  | case3 l b x r' hl f o hf ho ih =>
    simp only [Option.some.injEq, Prod.mk.injEq] at h
    rw [fields.eq_def]
    split
    · rename_i e; rw [line_more hl] at e; simp at e
    · rename_i e; rw [line_more hl] at e; simp at e
    · rename_i e
      rw [line_more hl] at e
      simp only [Option.some.injEq, Prod.mk.injEq, List.cons.injEq] at e
      obtain ⟨⟨rfl, rfl⟩, rfl⟩ := e
      rw [ho, ih hf]
      simp only [h.1, h.2]
  | case4 => simp at h

theorem read_more {l : List UInt8} {m : Msg} {r : List UInt8} (h : read l = some (m, r)) (y : List UInt8) : read (l ++ y) = some (m, r ++ y) := by
  unfold read at h ⊢
  split at h
  · simp at h
  · rename_i s r0 hl
    rw [line_more hl]
    simp only
    split at h
    · rename_i code fs rest hs hf
      rw [hs, fields_more hf]
      simp only
      split at h
      · rename_i n hn
        split at h
        · rename_i hle
          simp only [Option.some.injEq, Prod.mk.injEq] at h
          rw [if_pos (by simp; omega), List.take_append_of_le_length hle, List.drop_append_of_le_length hle, h.1, h.2]
        · simp at h
      · simp at h
    · simp at h

/-- A field that survives being written as `name: value`. -/
def Clean (f : List UInt8 × List UInt8) : Prop :=
  f.1 ≠ [] ∧ 13 ∉ f.1 ∧ 58 ∉ f.1 ∧ 13 ∉ f.2 ∧ f.2.head? ≠ some 32

/-- The field on the wire. -/
def wire (f : List UInt8 × List UInt8) : List UInt8 := f.1 ++ (58 :: 32 :: (f.2 ++ [13, 10]))

theorem field_wire (f : List UInt8 × List UInt8) (h : Clean f) : field (f.1 ++ (58 :: 32 :: f.2)) = some f := by
  have h1 : (f.1 ++ (58 :: 32 :: f.2)).dropWhile (· ≠ 58) = 58 :: 32 :: f.2 := by
    rw [List.dropWhile_append_of_pos]
    · simp
    · intro a ha; simp only [ne_eq, decide_eq_true_eq]; rintro rfl; exact h.2.2.1 ha
  have h2 : (f.1 ++ (58 :: 32 :: f.2)).takeWhile (· ≠ 58) = f.1 := by
    rw [List.takeWhile_append_of_pos]
    · simp
    · intro a ha; simp only [ne_eq, decide_eq_true_eq]; rintro rfl; exact h.2.2.1 ha
  unfold field
  rw [h1]
  simp only [h2]
  have : (32 :: f.2).dropWhile (· = 32) = f.2 := by
    rw [List.dropWhile_cons, if_pos (by simp)]
    cases hf : f.2 with
    | nil => rfl
    | cons a t =>
      have := h.2.2.2.2
      rw [hf] at this
      simp only [List.head?_cons, ne_eq, Option.some.injEq] at this
      rw [List.dropWhile_cons, if_neg (by simpa using this)]
  rw [this]

theorem fields_wire (fs : List (List UInt8 × List UInt8)) (h : ∀ f ∈ fs, Clean f) (r : List UInt8) :
    fields ((fs.map wire).flatten ++ 13 :: 10 :: r) = some (fs, r) := by
  induction fs with
  | nil =>
    have hl : line (13 :: 10 :: r) = some ([], r) := line_append (l := []) (by simp) r
    rw [List.map_nil, List.flatten_nil, List.nil_append, fields.eq_def]
    split
    · rename_i e; rw [hl] at e; simp at e
    · rename_i e; rw [hl] at e; simp at e; rw [e]
    · rename_i e; rw [hl] at e; simp at e
  | cons f t ih =>
    have hc := h f (by simp)
    have hl : line (((f :: t).map wire).flatten ++ 13 :: 10 :: r) =
        some (f.1 ++ (58 :: 32 :: f.2), (t.map wire).flatten ++ 13 :: 10 :: r) := by
      rw [List.map_cons, List.flatten_cons]
      have := line_append (l := f.1 ++ (58 :: 32 :: f.2)) (by
        simp only [List.mem_append, List.mem_cons, not_or]; exact ⟨hc.2.1, by decide, by decide, hc.2.2.2.1⟩)
        ((t.map wire).flatten ++ 13 :: 10 :: r)
      simpa [wire] using this
    obtain ⟨b, x, hbx⟩ := List.exists_cons_of_ne_nil hc.1
    rw [fields.eq_def]
    split
    · rename_i e; rw [hl] at e; simp at e
    · rename_i e; rw [hl] at e; simp [hc.1] at e
    · rename_i e
      rw [hl] at e
      simp only [Option.some.injEq, Prod.mk.injEq] at e
      rw [← e.1, ← e.2, field_wire f hc, ih fun g hg => h g (by simp [hg])]

end Verif.RspSpec

namespace Verif.Web
open Printf

/-- As long as everything fits one buffer, the header chain is the concatenation of the texts. -/
theorem hdr_fold (texts : List (List UInt8)) (acc : List UInt8) (ht : ∀ t ∈ texts, t.length ≤ 1022)
    (hs : acc.length + texts.flatten.length < 4096) : texts.foldl hdrp [acc] = [acc ++ texts.flatten] := by
  induction texts generalizing acc with
  | nil => simp
  | cons t r ih =>
    simp only [List.flatten_cons, List.length_append] at hs
    have h1 : t.length ≤ 1022 := ht t (by simp)
    have : hdrp [acc] t = [acc ++ t] := by
      simp only [hdrp, sn, Nat.reduceSub, List.take_of_length_le h1, hdrPut]
      rw [if_pos (by omega)]
    rw [List.foldl_cons, this, ih (acc ++ t) (fun x hx => ht x (by simp [hx])) (by rw [List.length_append]; omega)]
    simp

theorem hdr_fold_nil (l : List (List UInt8)) (hne : l ≠ []) (ht : ∀ x ∈ l, x.length ≤ 1022)
    (hs : l.flatten.length < 4096) : l.foldl hdrp [] = [l.flatten] := by
  obtain ⟨t, r, rfl⟩ := List.exists_cons_of_ne_nil hne
  have : hdrp [] t = [t] := by simp [hdrp, sn, hdrPut, List.take_of_length_le (ht t (by simp))]
  rw [List.foldl_cons, this, hdr_fold r t (fun x hx => ht x (by simp [hx])) (by simpa using hs)]
  simp

end Verif.Web
