import Verif.Props.Config
import Verif.Props.CJsonAccept
/-
Properties C70 and C72 for files that are read or were written only in part.
-/
namespace Verif.Config
open Verif.CJson Verif.CJson.Spec Verif.Config.Spec

theorem nz_take {l : List UInt8} (h : (0 : UInt8) ∉ l) (n : Nat) : (l.take n).takeWhile (· ≠ 0) = l.take n :=
  nz_takeWhile fun hm => h (List.mem_of_mem_take hm)

/-- What is parsed of a document followed by anything, when the first `m` bytes of both are there. -/
theorem parse_part {strtod : List UInt8 → Nat × Int} {den : List UInt8 → Int} (hd : Means strtod den) (hp : Lax.Prefix strtod) {w s : List UInt8}
    {j : J Int} (hw : Ws w) (h : Doc den s j) (hc : Lax.Container j) (rest : List UInt8) (m : Nat) :
    parse strtod (((w ++ s ++ rest).take m).takeWhile (· ≠ 0)) =
      if w.length + s.length ≤ m then .ok (j, w.length + s.length) else .error .reject := by
  have hz : (0 : UInt8) ∉ w ++ s := by simpa using doc_nz (w' := []) hw ws_nil h
  have hdoc : parse strtod (w ++ s) = .ok (j, w.length + s.length) := by
    simpa using c63_document_partial strtod den hd w s [] j hw ws_nil h
  obtain ⟨h1, h2⟩ := c99_cut strtod hp (w ++ s) j _ hc hz hdoc
  have hl : (w ++ s).length = w.length + s.length := List.length_append
  split
  · rename_i hm
    have e : (w ++ s ++ rest).take m = (w ++ s) ++ rest.take (m - (w ++ s).length) := by
      rw [List.take_append, List.take_of_length_le (by omega)]
    rw [e, List.takeWhile_append_of_pos (by
      intro b hb
      simp only [decide_eq_true_eq]
      rintro rfl
      exact hz hb)]
    have := h2 ((rest.take (m - (w ++ s).length)).takeWhile (· ≠ 0)) (by
      intro hm
      have := List.all_eq_true.mp List.all_takeWhile _ hm
      simp at this)
    rwa [List.take_of_length_le (by omega)] at this
  · rename_i hm
    have e : (w ++ s ++ rest).take m = (w ++ s).take m := by
      rw [List.take_append, Nat.sub_eq_zero_of_le (by omega), List.take_zero, List.append_nil]
    rw [e, nz_take hz]
    exact h1 m (by omega)

/-- C72, exactly: let the key file start with a JSON array of strings without NUL, followed by anything. If its one `read` returns the array as a
whole, which takes that the array ends within the first 4096 bytes, the keys in force are these strings. In all other cases there are none, and
start-up succeeds. Missing: the keys of a file that is not read as a whole. -/
theorem c72_exact_partial {strtod : List UInt8 → Nat × Int} {den : List UInt8 → Int} (hd : Means strtod den) (hp : Lax.Prefix strtod)
    (w s rest : List UInt8) (ks : List (List UInt8)) (hw : Ws w) (h : Doc den s (.arr (ks.map J.str))) (hk : ∀ k ∈ ks, 0 ∉ k) (rd : Nat → Option Nat)
    (n : Nat) (hr : rd 0 = some n) :
    authKeys strtod (some (w ++ s ++ rest)) rd = .ok (some (if w.length + s.length ≤ n ∧ w.length + s.length ≤ 4096 then ks else [])) := by
  unfold authKeys readAt
  dsimp only
  rw [hr, Option.map_some, List.drop_zero, List.take_take]
  dsimp only
  rw [parse_part hd hp hw h trivial rest]
  unfold authMax
  by_cases hm : w.length + s.length ≤ min n 4096
  · rw [if_pos hm, if_pos (by omega)]
    dsimp only [children]
    rw [keyStrings_of hk]
  · rw [if_neg hm, if_neg (by omega)]

/-- C70 is false for a configuration that was written only in part, wherever it stops: the part is ignored like a missing file, the program
runs with its initial configuration, start-up succeeds and nothing listens. -/
theorem c70_cut_counterexample {strtod : List UInt8 → Nat × Int} {den : List UInt8 → Int} (hd : Means strtod den) (hp : Lax.Prefix strtod)
    (w s : List UInt8) (l : List (List UInt8 × J Int)) (hw : Ws w) (h : Doc den s (.obj l)) (rd : Nat → Option Nat) (hr : Reading rd) (m : Nat)
    (hm : m < w.length + s.length) (sys : Nat → Bool) :
    init strtod (some ((w ++ s).take m).length) (some ((w ++ s).take m)) rd = .ok { level := 255 } ∧
    listenInit sys { level := 255 } = .ok (true, []) := by
  have hz : (0 : UInt8) ∉ w ++ s := by simpa using doc_nz (w' := []) hw ws_nil h
  have hz' : (0 : UInt8) ∉ (w ++ s).take m := fun hx => hz (List.mem_of_mem_take hx)
  refine ⟨(c70_ignored_counterexample strtod rd hr sys).2.2.1 _ hz' ?_, (c70_ignored_counterexample strtod rd hr sys).2.2.2⟩
  have := parse_part hd hp hw h trivial [] m
  rw [List.append_nil, nz_take hz, if_neg (by omega)] at this
  exact this

/-- C69, with something after the object: what follows the configuration in the file, whatever it is, is ignored. -/
theorem c69_rest_partial {strtod : List UInt8 → Nat × Int} {den : List UInt8 → Int} (hd : Means strtod den) (hp : Lax.Prefix strtod)
    (w s rest : List UInt8) (l : List (List UInt8 × J Int)) (hw : Ws w) (h : Doc den s (.obj l)) (hz : 0 ∉ rest) (rd : Nat → Option Nat)
    (hr : Reading rd) (S : Settings) (hS : Writes l S) (hF : Fits S) :
    ∃ c, init strtod (some (w ++ s ++ rest).length) (some (w ++ s ++ rest)) rd = .ok c ∧ Holds c S := by
  have hz' : (0 : UInt8) ∉ w ++ s := by simpa using doc_nz (w' := []) hw ws_nil h
  have hz2 : (0 : UInt8) ∉ w ++ s ++ rest := fun hx => (List.mem_append.mp hx).elim hz' hz
  rw [init_whole hr hz2]
  unfold parseText
  have := parse_part hd hp hw h trivial rest (w ++ s ++ rest).length
  rw [List.take_of_length_le (Nat.le_refl _), nz_takeWhile hz2, if_pos (by simp)] at this
  rw [this]
  obtain ⟨c, hc, hh, _⟩ := fill_of hS hF
  exact ⟨c, hc, hh⟩

/-! ### Concrete files -/

theorem prefix_decimal : Lax.Prefix (fun s => (s.length, decimal s)) := fun t => ⟨Nat.le_refl _, by rw [List.take_length]⟩

/-- The file `["ab"]`. -/
theorem key_doc : Doc decimal [0x5B, 0x22, 0x61, 0x62, 0x22, 0x5D] (.arr ([[0x61, 0x62]].map J.str)) := by
  have h := val_arr (den := decimal) 999 [(_, .str [0x61, 0x62])] (by simp) (by
    intro x hx
    simp only [List.mem_singleton] at hx
    subst hx
    exact val_str 999 [0x61, 0x62] (plain_str _ (by decide)))
  exact h

/-- Case of `c72_exact_partial`: `["ab"] x`, of which all is read, or five bytes. -/
example (rd rd' : Nat → Option Nat) (hr : rd 0 = some 100) (hr' : rd' 0 = some 5) :
    authKeys (fun s => (s.length, decimal s)) (some [0x5B, 0x22, 0x61, 0x62, 0x22, 0x5D, 0x20, 0x78]) rd = .ok (some [[0x61, 0x62]]) ∧
    authKeys (fun s => (s.length, decimal s)) (some [0x5B, 0x22, 0x61, 0x62, 0x22, 0x5D, 0x20, 0x78]) rd' = .ok (some []) :=
  ⟨c72_exact_partial means_decimal prefix_decimal [] _ [0x20, 0x78] _ ws_nil key_doc (by decide) rd 100 hr,
    c72_exact_partial means_decimal prefix_decimal [] _ [0x20, 0x78] _ ws_nil key_doc (by decide) rd' 5 hr'⟩

/-- Case of `c70_cut_counterexample`: a configuration with one web port without its closing brace. -/
example (rd : Nat → Option Nat) (hr : Reading rd) :
    init (fun s => (s.length, decimal s)) (some ((webFile 1).take 15).length) (some ((webFile 1).take 15)) rd = .ok { level := 255 } :=
  (c70_cut_counterexample means_decimal prefix_decimal [] _ _ ws_nil (web_doc 1 (by decide)) rd hr 15 (by decide +kernel) (fun _ => true)).1

/-- Case of `c69_rest_partial`: the same configuration followed by more braces. -/
example (rd : Nat → Option Nat) (hr : Reading rd) :
    ∃ c, init (fun s => (s.length, decimal s)) (some (webFile 1 ++ [0x7D, 0x7D]).length) (some (webFile 1 ++ [0x7D, 0x7D])) rd = .ok c ∧
      Holds c { blank with http := [80] } :=
  c69_rest_partial means_decimal prefix_decimal [] _ [0x7D, 0x7D] _ ws_nil (web_doc 1 (by decide)) (by decide) rd hr _ (web_writes 1) (web_fits 1 (by decide))

end Verif.Config
