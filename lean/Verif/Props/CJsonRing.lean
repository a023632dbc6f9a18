import Verif.Proofs.CJsonParseRing
import Verif.Props.CJsonDup
import Verif.Props.CJsonEdit
/-
C122: how the items of a document that was read or copied are linked.
-/
namespace Verif.CJsonMem
open Verif.CJson (J)

variable {V : Type} {ok : Nat → Bool}

/-- C122. In a document that was read every list of children is linked in both directions, with the first one pointing back to the last; the children are blocks of the document. -/
theorem c122_parse (strtod : List UInt8 → Nat × V) (text : List UInt8) (h : H V) (hf : Fresh h) (p : Nat) (h' : H V) (e : parse ok strtod text h = some (some p, h')) :
    ∃ j S, Doc h' p j S ∧ (∀ a ∈ S, h.cells a = none) ∧ ∀ a ∈ S, ∀ it, h'.cells a = some (.item it) → ∃ cs, Ring h' a cs ∧ ∀ c ∈ cs, c ∈ S := by
  rcases parseLen_cases (ok := ok) strtod (text.takeWhile (· ≠ 0) ++ [0]) h hf (fun x hx => Verif.CJson.c50_inside strtod text x hx) with ⟨h2, a, -⟩ | ⟨h2, S, j, k, a, b, c, d, k2, -⟩
  · have := e.symm.trans a; cases this
  · have e' : some (some p, h') = some (some h.used, h2) := e.symm.trans a
    cases e'
    refine ⟨j, S, c, fun a ha => hf a (d a ha), fun a ha it ea => ?_⟩
    obtain ⟨cs, R, hn⟩ := parse_rings hf e a it (d a ha) ea
    refine ⟨cs, R, fun x hx => Classical.byContradiction fun hc => ?_⟩
    obtain ⟨itx, ex⟩ := R.live x (List.mem_cons_of_mem a hx)
    rw [k2 x hc, hf x (hn x hx)] at ex
    cases ex

/-- C122. The same for a copy, also one without what is in the item. -/
theorem c122_copy (recurse : Bool) (h : H V) (hf : Fresh h) (p : Nat) (nm : Option (List UInt8)) (j : J V) (S : List Nat) (e : Option Nat) (hs : Seg h (some p) [(nm, j)] S e) (n : Nat)
    (hn : S.length ≤ n) (q : Nat) (h' : H V) (hd : duplicate ok recurse n h p = some (some q, h')) :
    ∃ j' T, Seg h' (some q) [(nm.map cstr, j')] T none ∧ (∀ a ∈ T, h.cells a = none) ∧ ∀ a ∈ T, ∀ it, h'.cells a = some (.item it) → ∃ cs, Ring h' a cs ∧ ∀ c ∈ cs, c ∈ T := by
  rcases copy_cases (ok := ok) recurse h hf p nm j S e hs n hn with ⟨h2, a, -⟩ | ⟨q2, h2, T, a, b, -, d, k2, -⟩
  · rw [hd] at a; cases a
  · rw [hd] at a
    cases a
    have w := duplicate_whole n recurse h p q h' hf hd
    refine ⟨_, T, b, d, fun a ha it ea => ?_⟩
    have hau : h.used ≤ a := Nat.le_of_not_lt fun hlt => by rw [w.old a hlt, d a ha] at ea; cases ea
    obtain ⟨cs, R, hc⟩ := w.rings a it hau ea
    refine ⟨cs, R, fun x hx => Classical.byContradiction fun hxT => ?_⟩
    obtain ⟨itx, ex⟩ := R.live x (List.mem_cons_of_mem a hx)
    rw [k2 x hxT, hf x (hc x hx).1] at ex
    cases ex

/-- The root of what was read is an item of it, and so has its children in order. -/
theorem parse_root (strtod : List UInt8 → Nat × V) (text : List UInt8) (h : H V) (hf : Fresh h) (p : Nat) (h' : H V) (e : parse ok strtod text h = some (some p, h')) : ∃ cs, Ring h' p cs := by
  obtain ⟨j, S, hd, -, hr⟩ := c122_parse strtod text h hf p h' e
  obtain ⟨it, Sn, S1, S2, ep, -⟩ := Seg.head hd.1
  have := hd.1.own .nil
  rw [List.append_nil] at this
  obtain ⟨cs, R, -⟩ := hr p (by cases this with | cons => exact List.mem_cons_self) it ep
  exact ⟨cs, R⟩

/-- C122. So a document that was read can be extended: a new item becomes the last child of the root, behind all that were read. -/
theorem c122_extend (strtod : List UInt8 → Nat × V) (text : List UInt8) (h : H V) (hf : Fresh h) (p : Nat) (h1 : H V) (e : parse ok strtod text h = some (some p, h1))
    (a : Nat) (h2 : H V) (hn : newItem ok h1 = (some a, h2)) :
    ∃ cs h3, (∀ i, arrayItem h1 p i = some cs[i]?) ∧ addItem h2 p a = some (true, h3) ∧ Ring h3 p (cs ++ [a]) ∧ ∀ i, arrayItem h3 p i = some (cs ++ [a])[i]? := by
  obtain ⟨cs, R⟩ := parse_root strtod text h hf p h1 e
  have hf1 : Fresh h1 := by
    rcases parseLen_cases (ok := ok) strtod (text.takeWhile (· ≠ 0) ++ [0]) h hf (fun x hx => Verif.CJson.c50_inside strtod text x hx) with ⟨h2, a, -⟩ | ⟨h2, S, j, k, a, -, -, -, -, -, b, -⟩
    · have := e.symm.trans a; cases this
    · have e' : some (some p, h1) = some (some h.used, h2) := e.symm.trans a
      cases e'
      exact b
  have g := grown_new hf1 hn
  have hx : ∀ x ∈ p :: cs, x < h1.used := fun x hx => by obtain ⟨it, ex⟩ := R.live x hx; exact lt_of_cell hf1 ex
  have R2 : Ring h2 p cs := R.congr fun x hx' => g.old x (hx x hx')
  obtain ⟨it0, q1, q2, q3⟩ := g.root
  have ha : a ∉ p :: cs := fun hc => by have := hx a hc; have := g.new; omega
  obtain ⟨h3, e3, R3, -⟩ := c120_append R2 q1 q2 ha
  exact ⟨cs, h3, arrayItem_ring R, e3, R3, arrayItem_ring R3⟩

/-- `[[true,null],false]` is read into an empty memory: the children of the root are 1 and 4, those of 1 are 2 and 3; 1 points back to 4, and 2 to 3. -/
def nested : List UInt8 := [0x5b, 0x5b, 0x74, 0x72, 0x75, 0x65, 0x2c, 0x6e, 0x75, 0x6c, 0x6c, 0x5d, 0x2c, 0x66, 0x61, 0x6c, 0x73, 0x65, 0x5d]

theorem nested_read : (parse (V := Int) (fun _ => true) (fun _ => (0, 0)) nested empty).map (fun r => (r.1, (List.range 5).map r.2.cells)) =
    some (some 0, [some (.item ⟨.array, none, none, some 1, none, none⟩), some (.item ⟨.array, some 4, some 4, some 2, none, none⟩), some (.item ⟨.bool true, some 3, some 3, none, none, none⟩),
      some (.item ⟨.null, none, some 2, none, none, none⟩), some (.item ⟨.bool false, none, some 1, none, none, none⟩)]) := by
  decide +kernel

theorem nested_some : ∃ h', parse (V := Int) (fun _ => true) (fun _ => (0, 0)) nested empty = some (some 0, h') := by
  have := nested_read
  revert this
  cases parse (V := Int) (fun _ => true) (fun _ => (0, 0)) nested empty with
  | none => intro h; cases h
  | some r =>
    obtain ⟨a, h'⟩ := r
    intro h
    simp only [Option.map_some, Option.some.injEq, Prod.mk.injEq] at h
    exact ⟨h', by rw [h.1]⟩

example : ∃ h' j S, parse (V := Int) (fun _ => true) (fun _ => (0, 0)) nested empty = some (some 0, h') ∧ Doc h' 0 j S ∧ ∀ a ∈ S, ∀ it, h'.cells a = some (.item it) → ∃ cs, Ring h' a cs := by
  obtain ⟨h', e⟩ := nested_some
  obtain ⟨j, S, d, -, r⟩ := c122_parse _ nested empty (fun _ _ => rfl) 0 h' e
  exact ⟨h', j, S, e, d, fun a ha it ea => by obtain ⟨cs, R, -⟩ := r a ha it ea; exact ⟨cs, R⟩⟩

example : ∃ h1 h2 cs h3, parse (V := Int) (fun _ => true) (fun _ => (0, 0)) nested empty = some (some 0, h1) ∧ newItem (fun _ => true) h1 = (some h1.used, h2) ∧
    addItem h2 0 h1.used = some (true, h3) ∧ Ring h3 0 (cs ++ [h1.used]) := by
  obtain ⟨h1, e⟩ := nested_some
  obtain ⟨cs, h3, -, e2, e3, -⟩ := c122_extend _ nested empty (fun _ _ => rfl) 0 h1 e _ _ rfl
  exact ⟨h1, _, cs, h3, e, rfl, e2, e3⟩

/-- A copy of the array of two strings of C118. -/
example : ∃ q h', ∃ T : List Nat, duplicate (fun _ => true) true 5 twoStrings 0 = some (some q, h') ∧ ∀ a ∈ T, ∀ it, h'.cells a = some (.item it) → ∃ cs, Ring h' a cs := by
  rcases copy_cases (ok := fun _ => true) true twoStrings (fun a ha => by match a, ha with | n + 5, _ => rfl) 0 none _ _ none twoStrings_doc.1 5 (Nat.le_refl 5) with ⟨h', -, -, k, -, -, hk⟩ | ⟨q, h', T, a, -⟩
  · cases hk
  · obtain ⟨-, T, -, -, r⟩ := c122_copy (ok := fun _ => true) true twoStrings (fun a ha => by match a, ha with | n + 5, _ => rfl) 0 none _ _ none twoStrings_doc.1 5 (Nat.le_refl 5) q h' a
    exact ⟨q, h', T, a, fun a ha it ea => by obtain ⟨cs, R, -⟩ := r a ha it ea; exact ⟨cs, R⟩⟩

end Verif.CJsonMem
