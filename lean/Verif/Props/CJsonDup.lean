import Verif.Proofs.CJsonDup
import Verif.Props.CJsonMem
/-
C118: the copy of a document in memory.
-/
namespace Verif.CJsonMem
open Verif.CJson

variable {V : Type} {ok : Nat → Bool}

/-- C118, both ways an item can be copied: with `recurse` all that is in it, otherwise an array or object becomes empty. Either an allocation failed, then the result is NULL and the memory is as
before; or no allocation failed, and the copy lies in new blocks, each used once, and nothing else has changed. No block is used that is not there, for every item `p` of a document
(wherever it stands, with or without a name) and every pattern of failing allocations. -/
theorem copy_cases (recurse : Bool) (h : H V) (hf : Fresh h) (p : Nat) (nm : Option (List UInt8)) (j : J V) (S : List Nat) (e : Option Nat) (hs : Seg h (some p) [(nm, j)] S e) (n : Nat)
    (hn : S.length ≤ n) :
    (∃ h', duplicate ok recurse n h p = some (none, h') ∧ h'.cells = h.cells ∧ ∃ k, h.used ≤ k ∧ k < h'.used ∧ ok k = false) ∨
    (∃ q h' T, duplicate ok recurse n h p = some (some q, h') ∧ Seg h' (some q) [(nm.map cstr, seen (if recurse then j else bare j))] T none ∧ T.Nodup ∧ (∀ a ∈ T, h.cells a = none) ∧
      (∀ a, a ∉ T → h'.cells a = h.cells a) ∧ Fresh h' ∧ ∀ k, h.used ≤ k → k < h'.used → ok k = true) := by
  rcases duplicate_ok (ok := ok) (r := recurse) hf hs n hn with ⟨h', e1, F, no⟩ | ⟨q, h', e1, it, T, Sn, Sv, P, pT, N, W⟩
  · refine .inl ⟨h', e1, F.cells, Classical.byContradiction fun hc => no fun k x y => ?_⟩
    cases hk : ok k with
    | true => rfl
    | false => exact (hc ⟨k, x, y, hk⟩).elim
  · have P := P.perm pT
    refine .inr ⟨q, h', q :: (Sn ++ Sv), e1, ?_, P.nodup, fun a ha => hf a (P.new a ha), P.rest, P.fresh, P.all⟩
    have := W.seg P.at_ N
    rwa [P.next] at this

/-- C118: the copy of an item with all that is in it. -/
theorem c118_copy (h : H V) (hf : Fresh h) (p : Nat) (nm : Option (List UInt8)) (j : J V) (S : List Nat) (e : Option Nat) (hs : Seg h (some p) [(nm, j)] S e) (n : Nat) (hn : S.length ≤ n) :
    (∃ h', duplicate ok true n h p = some (none, h') ∧ h'.cells = h.cells ∧ ∃ k, h.used ≤ k ∧ k < h'.used ∧ ok k = false) ∨
    (∃ q h' T, duplicate ok true n h p = some (some q, h') ∧ Seg h' (some q) [(nm.map cstr, seen j)] T none ∧ T.Nodup ∧ (∀ a ∈ T, h.cells a = none) ∧
      (∀ a, a ∉ T → h'.cells a = h.cells a) ∧ ∀ k, h.used ≤ k → k < h'.used → ok k = true) := by
  rcases copy_cases (ok := ok) true h hf p nm j S e hs n hn with hx | ⟨q, h', T, a, b, c, d, x, -, y⟩
  · exact .inl hx
  · exact .inr ⟨q, h', T, a, b, c, d, x, y⟩

/-- C118, the copy without what is in it: an array or object becomes an empty one. -/
theorem c118_shallow (h : H V) (hf : Fresh h) (p : Nat) (nm : Option (List UInt8)) (j : J V) (S : List Nat) (e : Option Nat) (hs : Seg h (some p) [(nm, j)] S e) (n : Nat) (hn : S.length ≤ n) :
    (∃ h', duplicate ok false n h p = some (none, h') ∧ h'.cells = h.cells ∧ ∃ k, h.used ≤ k ∧ k < h'.used ∧ ok k = false) ∨
    (∃ q h' T, duplicate ok false n h p = some (some q, h') ∧
      Seg h' (some q) [(nm.map cstr, match j with | .arr _ => .arr [] | .obj _ => .obj [] | .str s => .str (cstr s) | j => j)] T none ∧ T.Nodup ∧ (∀ a ∈ T, h.cells a = none) ∧
      (∀ a, a ∉ T → h'.cells a = h.cells a) ∧ ∀ k, h.used ≤ k → k < h'.used → ok k = true) := by
  rcases copy_cases (ok := ok) false h hf p nm j S e hs n hn with hx | ⟨q, h', T, a, b, c, d, x, -, y⟩
  · exact .inl hx
  · refine .inr ⟨q, h', T, a, ?_, c, d, x, y⟩
    cases j <;> simpa [bare, seen] using b

/-- C118, the whole document: if no string of it has a zero byte in it and no allocation fails, then the copy is the same document, in blocks of its own; the original is still there. -/
theorem c118_same (h : H V) (hf : Fresh h) (p : Nat) (j : J V) (S : List Nat) (hd : Doc h p j S) (hz : NoZero j) (n : Nat) (hn : S.length ≤ n) (hok : ∀ k, ok k = true) :
    ∃ q h' T, duplicate ok true n h p = some (some q, h') ∧ Doc h' q j T ∧ Doc h' p j S ∧ List.Disjoint S T := by
  rcases copy_cases (ok := ok) true h hf p none j S none hd.1 n hn with ⟨h', -, -, k, -, -, hk⟩ | ⟨q, h', T, a, b, c, d, x, -, y⟩
  · rw [hok k] at hk; cases hk
  · have dis : List.Disjoint S T := fun w hw hv => by
      have h1 := (hd.1.own .nil).some_of_mem w (by simpa using hw)
      rw [d w hv] at h1; cases h1
    refine ⟨q, h', T, a, ⟨?_, c⟩, ⟨hd.1.congr fun w hw => x w (dis hw), hd.2⟩, dis⟩
    simpa [seen_id hz] using b

/-- C118, afterwards: whichever of original and copy is deleted, the other one stays as it is; and when the copy is deleted the memory is as before. -/
theorem c118_apart (h : H V) (hf : Fresh h) (p : Nat) (j : J V) (S : List Nat) (hd : Doc h p j S) (n : Nat) (hn : S.length ≤ n) (q : Nat) (h' : H V)
    (hq : duplicate ok true n h p = some (some q, h')) :
    (∃ h2, delete h'.used h' (some q) = some h2 ∧ h2.cells = h.cells) ∧
    (∃ h2 T, delete h'.used h' (some p) = some h2 ∧ Doc h2 q (seen j) T ∧ ∀ a ∈ S, h2.cells a = none) := by
  rcases copy_cases (ok := ok) true h hf p none j S none hd.1 n hn with ⟨g, a, -⟩ | ⟨q', g, T, a, b, c, d, x, f, y⟩
  · rw [a] at hq; cases hq
  rw [a] at hq
  cases hq
  have dis : List.Disjoint S T := fun w hw hv => by
    have h1 := (hd.1.own .nil).some_of_mem w (by simpa using hw)
    rw [d w hv] at h1; cases h1
  constructor
  · obtain ⟨h2, e2, c2⟩ := c110_delete h' f q (seen j) T ⟨by simpa using b, c⟩
    refine ⟨h2, e2, funext fun w => ?_⟩
    rw [c2]
    split
    · next hw => rw [d w hw]
    · next hw => exact x w hw
  · obtain ⟨h2, e2, c2⟩ := c110_delete h' f p j S ⟨hd.1.congr fun w hw => x w (dis hw), hd.2⟩
    refine ⟨h2, T, e2, ⟨Seg.congr (h := h') (by simpa using b) fun w hw => ?_, c⟩, fun w hw => by rw [c2, if_pos hw]⟩
    rw [c2, if_neg fun hx => dis hx hw]

/-- C118, the limit: a string with a zero byte in it, as `"a\u0000b"` gives, is copied up to that byte only; so the copy need not be the same document. -/
theorem c118_zero_counterexample (h : H V) (hf : Fresh h) (p : Nat) (s t : List UInt8) (hz : 0 ∉ s) (S : List Nat) (hd : Doc h p (.str (s ++ 0 :: t)) S) (n : Nat) (hn : S.length ≤ n)
    (hok : ∀ k, ok k = true) : ∃ q h' T, duplicate ok true n h p = some (some q, h') ∧ Doc h' q (.str s) T := by
  rcases copy_cases (ok := ok) true h hf p none _ S none hd.1 n hn with ⟨h', -, -, k, -, -, hk⟩ | ⟨q, h', T, a, b, c, -⟩
  · rw [hok k] at hk; cases hk
  · refine ⟨q, h', T, a, ?_, c⟩
    have : cstr (s ++ 0 :: t) = s := by
      have h1 : ∀ u : List UInt8, 0 ∉ u → cstr (u ++ 0 :: t) = u := by
        intro u
        induction u with
        | nil => intro _; simp [cstr]
        | cons b u ih =>
          intro hu
          simp only [List.mem_cons, not_or] at hu
          have := ih hu.2
          unfold cstr at this ⊢
          rw [List.cons_append, List.takeWhile_cons, if_pos (by simpa using fun e => hu.1 e.symm), this]
      exact h1 s hz
    simpa [seen, this] using b

/-! ### Cases -/

/-- `{"a":["x",true]}` lies in six blocks and is copied into six more; with `ok` failing at any of them the result is NULL and the new blocks are free again. -/
example : ((parse (fun _ => true) (fun _ => (0, 0)) sample empty).bind fun r => (duplicate (fun _ => true) true 6 r.2 0).map fun r => (r.1, r.2.used)) = some (some 6, 12) ∧
    ∀ k < 6, ((parse (fun _ => true) (fun _ => (0, 0)) sample empty).bind fun r => (duplicate (fun i => i != k + 6) true 6 r.2 0).map fun r =>
      (r.1, (List.range r.2.used).map fun a => (r.2.cells a).isSome)) = some (none, (List.range (7 + k)).map fun a => decide (a < 6)) := by
  constructor <;> decide +kernel

/-- Without what is in it: one block. -/
example : ((parse (fun _ => true) (fun _ => (0, 0)) sample empty).bind fun r => (duplicate (fun _ => true) false 6 r.2 0).map fun r => (r.1, r.2.used)) = some (some 6, 7) := by
  decide +kernel

/-- The hypotheses of the theorems hold for a document with an array of two strings, one with a zero byte. -/
def twoStrings : H Int := ⟨5, fun a => match a with
  | 0 => some (.item ⟨.array, none, none, some 1, none, none⟩)
  | 1 => some (.item ⟨.string, some 3, some 3, none, some 2, none⟩)
  | 2 => some (.bytes [0x61, 0x62])
  | 3 => some (.item ⟨.string, none, some 1, none, some 4, none⟩)
  | 4 => some (.bytes [0x63, 0x00, 0x64])
  | _ => none⟩

example : Fresh twoStrings := by
  intro a ha
  match a, ha with
  | n + 5, _ => rfl

theorem twoStrings_doc : Doc twoStrings 0 (.arr [.str [0x61, 0x62], .str [0x63, 0x00, 0x64]]) [0, 1, 2, 3, 4] := by
  refine ⟨?_, by decide⟩
  refine Seg.arr (Sn := []) (Sc := [1, 2, 3, 4]) (S := []) rfl ⟨rfl, rfl⟩ rfl rfl ?_ (.nil none)
  refine Seg.plain (Sn := []) (Sv := [2]) (S := [3, 4]) rfl ⟨rfl, rfl⟩ ⟨rfl, 2, rfl, rfl, rfl⟩ rfl ?_
  exact Seg.plain (Sn := []) (Sv := [4]) (S := []) rfl ⟨rfl, rfl⟩ ⟨rfl, 4, rfl, rfl, rfl⟩ rfl (.nil none)

/-- Its copy has the second string cut. -/
example : (duplicate (fun _ => true) true 5 twoStrings 0).map (fun r => (r.1, (List.range 5).map fun a => r.2.cells (a + 5))) =
    some (some 5, [some (.item ⟨.array, none, none, some 6, none, none⟩), some (.item ⟨.string, some 8, some 8, none, some 7, none⟩), some (.bytes [0x61, 0x62]),
      some (.item ⟨.string, none, some 6, none, some 9, none⟩), some (.bytes [0x63])]) := by
  decide +kernel

example : NoZero (.arr [.str [0x61, 0x62], .null] : J Int) := .arr (by
  intro x hx
  simp only [List.mem_cons, List.not_mem_nil, or_false] at hx
  rcases hx with rfl | rfl
  · exact .str (by decide)
  · exact .null)

end Verif.CJsonMem
