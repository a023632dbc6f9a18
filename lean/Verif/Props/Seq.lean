import Verif.Model.Seq
/-
Property C51: growable sequences.
-/
namespace Verif.Seq
variable {α : Type}

/-- From `p`, the links lead through exactly these blocks with these values. -/
def Linked (h : Heap α) : Option Nat → List (Nat × α) → Prop
  | p, [] => p = none
  | p, (a, v) :: t => p = some a ∧ ∃ nx, h a = some ⟨nx, v⟩ ∧ Linked h nx t

theorem Linked.frame {h : Heap α} {l : List (Nat × α)} {p : Option Nat} (hl : Linked h p l) {b : Nat} {n : Option (Node α)}
    (hb : b ∉ l.map (·.1)) : Linked (h.set b n) p l := by
  induction l generalizing p with
  | nil => exact hl
  | cons x t ih =>
    obtain ⟨a, v⟩ := x
    obtain ⟨h1, nx, h2, h3⟩ := hl
    simp only [List.map_cons, List.mem_cons, not_or] at hb
    exact ⟨h1, nx, by simp [Heap.set, Ne.symm hb.1, h2], ih h3 hb.2⟩

theorem Linked.append {h : Heap α} {l : List (Nat × α)} {p : Option Nat} {q : Nat} {w : α} (hl : Linked h p (l ++ [(q, w)]))
    (hn : ((l ++ [(q, w)]).map (·.1)).Nodup) {a : Nat} {v : α} (ha : h a = some ⟨none, v⟩) (hf : a ∉ (l ++ [(q, w)]).map (·.1)) :
    ∃ h2, link h q a = some h2 ∧ Linked h2 p (l ++ [(q, w)] ++ [(a, v)]) := by
  have hq : ∃ nx, h q = some ⟨nx, w⟩ := by
    clear hn hf
    induction l generalizing p with
    | nil => obtain ⟨_, nx, h2, _⟩ := hl; exact ⟨nx, h2⟩
    | cons x t ih => obtain ⟨_, nx, _, h3⟩ := hl; exact ih h3
  obtain ⟨nx, hq⟩ := hq
  refine ⟨h.set q (some ⟨some a, w⟩), by simp [link, hq], ?_⟩
  have hqa : a ≠ q := fun e => hf (by simp [e])
  induction l generalizing p with
  | nil =>
    obtain ⟨h1, _, _⟩ := hl
    exact ⟨h1, some a, by simp [Heap.set], rfl, none, by simp [Heap.set, hqa, ha], rfl⟩
  | cons x t ih =>
    obtain ⟨b, u⟩ := x
    obtain ⟨h1, nx', h2, h3⟩ := hl
    simp only [List.cons_append, List.map_cons, List.nodup_cons, List.mem_cons, not_or] at hn hf
    refine ⟨h1, nx', ?_, ih h3 hn.2 hf.2⟩
    have : b ≠ q := fun e => hn.1 (by simp [e])
    simp [Heap.set, this, h2]

/-- The pool never hands out a block that is in use. -/
def Fresh (used : List Nat) : List (Option (Nat × α)) → Prop
  | [] => True
  | none :: ps => Fresh used ps
  | some (a, _) :: ps => a ∉ used ∧ Fresh (used ++ [a]) ps

/-- The values of the successful pushes, in order. -/
def values (ps : List (Option (Nat × α))) : List α := ps.filterMap fun p => p.map (·.2)

/-- The blocks of the successful pushes. -/
def blocks (ps : List (Option (Nat × α))) : List Nat := ps.filterMap fun p => p.map (·.1)

/-- The fields of an array that holds the blocks and values `l`. -/
structure ArrOk (h : Heap α) (l : Arr) (c : List (Nat × α)) : Prop where
  linked : Linked h l.head c
  num : l.num = c.length
  last : l.last = c.getLast?.map (·.1)
  nodup : (c.map (·.1)).Nodup

theorem arrPush_ok {h : Heap α} {l : Arr} {c : List (Nat × α)} (k : ArrOk h l c) {a : Nat} {v : α} (hf : a ∉ c.map (·.1)) :
    ∃ h' l', arrPush h l a v = some (h', l') ∧ ArrOk h' l' (c ++ [(a, v)]) := by
  have hn : ((c ++ [(a, v)]).map (·.1)).Nodup := by
    rw [List.map_append, List.nodup_append]
    refine ⟨k.nodup, by simp, ?_⟩
    intro x hx y hy e
    simp at hy
    subst hy e
    exact hf hx
  unfold arrPush
  rcases List.eq_nil_or_concat c with rfl | ⟨c', x, rfl⟩
  · rw [if_pos (show l.num = 0 from k.num)]
    exact ⟨_, _, rfl, ⟨rfl, none, by simp [Heap.set], rfl⟩, rfl, rfl, hn⟩
  · obtain ⟨q, w⟩ := x
    have k' := k
    rw [List.concat_eq_append] at k' hf hn ⊢
    rw [if_neg (by rw [k'.num]; simp)]
    have hl := k'.last
    simp only [List.getLast?_append, List.getLast?_singleton, Option.some_or, Option.map_some] at hl
    rw [hl]
    have hset : (h.set a (some ⟨none, v⟩)) a = some ⟨none, v⟩ := by simp [Heap.set]
    obtain ⟨h2, e1, e2⟩ := (k'.linked.frame (n := some ⟨none, v⟩) hf).append k'.nodup hset hf
    refine ⟨h2, ⟨l.num + 1, l.head, some a⟩, by simp [e1], e2, ?_, by simp, hn⟩
    simp [k'.num]

theorem arrRun_ok {h : Heap α} {l : Arr} {c : List (Nat × α)} (k : ArrOk h l c) (ps : List (Option (Nat × α)))
    (hf : Fresh (c.map (·.1)) ps) : ∃ h' l', arrRun h l ps = some (h', l') ∧ ArrOk h' l' (c ++ ps.filterMap id) := by
  induction ps generalizing h l c with
  | nil => exact ⟨h, l, rfl, by simpa using k⟩
  | cons p ps ih =>
    match p, hf with
    | none, hf =>
      obtain ⟨h', l', e1, e2⟩ := ih k hf
      exact ⟨h', l', by simpa [arrRun] using e1, by simpa using e2⟩
    | some (a, v), hf =>
      obtain ⟨h1, l1, e1, k1⟩ := arrPush_ok k hf.1 (v := v)
      obtain ⟨h', l', e2, e3⟩ := ih k1 (by simpa using hf.2)
      exact ⟨h', l', by simp [arrRun, e1, e2], by simpa using e3⟩

theorem advance_ok {h : Heap α} {c : List (Nat × α)} {p : Option Nat} (hl : Linked h p c) (k : Nat) (hk : k < c.length) :
    advance h k p = some (some (c[k].2)) := by
  induction k generalizing p c with
  | zero =>
    match c, hk, hl with
    | (a, v) :: t, _, ⟨h1, nx, h2, _⟩ => simp [advance, h1, h2]
  | succ k ih =>
    match c, hk, hl with
    | (a, v) :: t, hk, ⟨h1, nx, h2, h3⟩ =>
      simp only [advance, h1, h2]
      simpa using ih h3 (by simpa using hk)

/-- C51: after any history of pushes on a new array, with any of them failing for lack of memory, index `i` (counted from 1) returns the
`i`-th stored value, every other index returns NULL, and no lookup or push dereferences NULL. -/
theorem c51_arr (h : Heap α) (ps : List (Option (Nat × α))) (hf : Fresh [] ps) :
    ∃ h' l', arrRun h ⟨0, none, none⟩ ps = some (h', l') ∧
      ∀ i : Int, arrGet h' l' i = some (if i < 1 then none else (values ps)[i.toNat - 1]?) := by
  have k0 : ArrOk h ⟨0, none, none⟩ [] := ⟨rfl, rfl, rfl, by simp⟩
  obtain ⟨h', l', e, k⟩ := arrRun_ok k0 ps hf
  refine ⟨h', l', e, ?_⟩
  have hv : values ps = (ps.filterMap id).map (·.2) := by
    unfold values; rw [List.map_filterMap]; rfl
  intro i
  rw [List.nil_append] at k
  unfold arrGet
  by_cases h1 : i < 1
  · rw [if_pos (Or.inl h1), if_pos h1]
  · rw [if_neg h1]
    by_cases h2 : i > l'.num
    · rw [if_pos (Or.inr h2), List.getElem?_eq_none]
      rw [hv, List.length_map]
      have := k.num
      omega
    · rw [if_neg (fun c => by rcases c with c | c; exact h1 c; exact h2 c)]
      have hlt : i.toNat - 1 < (ps.filterMap id).length := by
        have := k.num
        omega
      rw [advance_ok k.linked _ hlt, hv, List.getElem?_map, List.getElem?_eq_getElem hlt]
      rfl

/-- Case for `c51_arr`: three pushes, the second fails. -/
example : Fresh (α := Nat) [] [some (5, 70), none, some (3, 71)] ∧ values [some (5, 70), none, some (3, 71)] = [70, 71] ∧
    (arrRun (fun _ => none) ⟨0, none, none⟩ [some (5, 70), none, some (3, 71)]).map (fun r => (arrGet r.1 r.2 0, arrGet r.1 r.2 1, arrGet r.1 r.2 2, arrGet r.1 r.2 3)) =
      some (some none, some (some 70), some (some 71), some none) := by
  refine ⟨by simp [Fresh], by decide, by decide⟩

theorem lastOf_ok {h : Heap α} {c : List (Nat × α)} {p a : Nat} {v : α} (hl : Linked h (some p) (c ++ [(a, v)])) (fuel : Nat)
    (hfu : c.length < fuel) : lastOf h fuel p = some a := by
  induction c generalizing p fuel with
  | nil =>
    obtain ⟨h1, nx, h2, h3⟩ := hl
    cases fuel with
    | zero => simp at hfu
    | succ f =>
      simp only [Option.some.injEq] at h1
      subst h1
      have : nx = none := h3
      subst this
      simp [lastOf, h2]
  | cons x t ih =>
    obtain ⟨b, w⟩ := x
    obtain ⟨h1, nx, h2, h3⟩ := hl
    cases fuel with
    | zero => simp at hfu
    | succ f =>
      simp only [Option.some.injEq] at h1
      subst h1
      cases nx with
      | none => cases t <;> exact absurd h3.1 (by simp)
      | some q =>
        simp only [lastOf, h2]
        exact ih h3 f (by simpa using hfu)

/-- The strings of the successful pushes as the list stores them. -/
def strings (ps : List (Option (Nat × List UInt8))) : List (Nat × List UInt8) :=
  (ps.filterMap id).map fun p => (p.1, p.2.takeWhile (· ≠ 0))

theorem listRun_ok (fuel : Nat) (ps : List (Option (Nat × List UInt8))) : ∀ (h : Heap (List UInt8)) (head : Option Nat) (c : List (Nat × List UInt8)),
    Linked h head c → (c.map (·.1)).Nodup → Fresh (c.map (·.1)) ps → c.length + ps.length ≤ fuel →
    ∃ h' head', listRun fuel h head ps = some (h', head') ∧ Linked h' head' (c ++ strings ps) ∧ ((c ++ strings ps).map (·.1)).Nodup := by
  induction ps with
  | nil => intro h head c hl hn _ _; exact ⟨h, head, rfl, by simpa [strings] using hl, by simpa [strings] using hn⟩
  | cons p ps ih =>
    intro h head c hl hn hf hfu
    match p, hf with
    | none, hf =>
      obtain ⟨h', hd', e1, e2, e3⟩ := ih h head c hl hn hf (by simp at hfu; omega)
      exact ⟨h', hd', by simpa [listRun] using e1, by simpa [strings] using e2, by simpa [strings] using e3⟩
    | some (a, s), hf =>
      have hset : (h.set a (some ⟨none, s.takeWhile (· ≠ 0)⟩)) a = some ⟨none, s.takeWhile (· ≠ 0)⟩ := by simp [Heap.set]
      have hn' : ((c ++ [(a, s.takeWhile (· ≠ 0))]).map (·.1)).Nodup := by
        rw [List.map_append, List.nodup_append]
        refine ⟨hn, by simp, ?_⟩
        intro x hx y hy e
        simp at hy
        subst hy e
        exact hf.1 hx
      have key : ∃ h1 hd1, listPush h head a s fuel = some (h1, hd1) ∧ Linked h1 hd1 (c ++ [(a, s.takeWhile (· ≠ 0))]) := by
        unfold listPush
        cases head with
        | none =>
          have hc : c = [] := by
            match c, hl with
            | [], _ => rfl
            | (_, _) :: _, ⟨e, _⟩ => simp at e
          subst hc
          exact ⟨_, _, rfl, rfl, none, hset, rfl⟩
        | some p =>
          rcases List.eq_nil_or_concat c with rfl | ⟨c', x, rfl⟩
          · exact absurd hl (by simp [Linked])
          · obtain ⟨q, w⟩ := x
            rw [List.concat_eq_append] at *
            have hfr := hl.frame (n := some ⟨none, s.takeWhile (· ≠ 0)⟩) hf.1
            simp only
            rw [lastOf_ok hfr fuel (by simp at hfu; omega)]
            obtain ⟨h2, e1, e2⟩ := hfr.append hn hset hf.1
            exact ⟨h2, some p, by dsimp only; rw [e1]; rfl, e2⟩
      obtain ⟨h1, hd1, e1, e2⟩ := key
      obtain ⟨h', hd', e3, e4, e5⟩ := ih h1 hd1 _ e2 hn' (by simpa using hf.2) (by simp at hfu ⊢; omega)
      exact ⟨h', hd', by simp [listRun, e1, e3], by simpa [strings] using e4, by simpa [strings] using e5⟩

theorem walk_ok {h : Heap α} {c : List (Nat × α)} {p : Option Nat} (hl : Linked h p c) (fuel : Nat) (hfu : c.length ≤ fuel) :
    walk h fuel p = some (c.map (·.1)) ∧ ∀ x ∈ c, (h x.1).map (·.data) = some x.2 := by
  induction c generalizing p fuel with
  | nil => have e : p = none := hl; subst e; cases fuel <;> simp [walk]
  | cons x t ih =>
    obtain ⟨a, v⟩ := x
    obtain ⟨h1, nx, h2, h3⟩ := hl
    subst h1
    cases fuel with
    | zero => simp at hfu
    | succ f =>
      obtain ⟨e1, e2⟩ := ih h3 f (by simpa using hfu)
      refine ⟨by simp [walk, h2, e1], ?_⟩
      intro y hy
      rcases List.mem_cons.mp hy with rfl | hy
      · simp [h2]
      · exact e2 y hy

/-- C51: after any history of pushes on an empty list, following the links visits the stored strings (up to their NUL) in the order of insertion and
nothing else. -/
theorem c51_list (h : Heap (List UInt8)) (ps : List (Option (Nat × List UInt8))) (hf : Fresh [] ps) :
    ∃ h' head, listRun ps.length h none ps = some (h', head) ∧
      walk h' ps.length head = some (blocks ps) ∧
      (blocks ps).map (fun a => (h' a).map (·.data)) = (values ps).map fun s => some (s.takeWhile (· ≠ 0)) := by
  obtain ⟨h', head, e1, e2, _⟩ := listRun_ok ps.length ps h none [] rfl (by simp) hf (by simp)
  rw [List.nil_append] at e2
  have hlen : (strings ps).length ≤ ps.length := by simp only [strings, List.length_map]; exact List.length_filterMap_le _ _
  obtain ⟨w1, w2⟩ := walk_ok e2 ps.length hlen
  have hb : (strings ps).map (·.1) = blocks ps := by
    unfold strings blocks; rw [List.map_map, List.map_filterMap]; rfl
  refine ⟨h', head, e1, by rw [w1, hb], ?_⟩
  rw [← hb, List.map_map]
  have hv : (values ps).map (fun s => some (s.takeWhile (· ≠ 0))) = (strings ps).map fun x => some x.2 := by
    unfold strings values; rw [List.map_map, List.map_filterMap, List.map_filterMap]
    congr 1; funext p; cases p <;> rfl
  rw [hv]
  exact List.map_congr_left fun x hx => w2 x hx

/-- Case for `c51_list`. -/
example : (listRun 2 (fun _ => none) none [some (9, [97, 98, 0, 99]), some (4, [100])]).bind (fun r => walk r.1 2 r.2) = some [9, 4] := by decide

theorem freeAll_ok {h : Heap α} {c : List (Nat × α)} {p : Option Nat} (hl : Linked h p c) (hn : (c.map (·.1)).Nodup) (fuel : Nat)
    (hfu : c.length ≤ fuel) : ∃ h', freeAll h fuel p = some (h', c.map (·.1)) := by
  induction c generalizing p fuel h with
  | nil => have e : p = none := hl; subst e; cases fuel <;> exact ⟨h, rfl⟩
  | cons x t ih =>
    obtain ⟨a, v⟩ := x
    obtain ⟨h1, nx, h2, h3⟩ := hl
    subst h1
    simp only [List.map_cons, List.nodup_cons] at hn
    cases fuel with
    | zero => simp at hfu
    | succ f =>
      obtain ⟨h', e⟩ := ih (h3.frame (n := none) hn.1) hn.2 f (by simpa using hfu)
      exact ⟨h', by simp [freeAll, h2, e]⟩

/-- C51: freeing the array or the list gives every block back exactly once, in order, and touches none after giving it back. -/
theorem c51_free_arr (h : Heap α) (ps : List (Option (Nat × α))) (hf : Fresh [] ps) :
    ∃ h' l' h'', arrRun h ⟨0, none, none⟩ ps = some (h', l') ∧ freeAll h' ps.length l'.head = some (h'', blocks ps) ∧ (blocks ps).Nodup := by
  have k0 : ArrOk h ⟨0, none, none⟩ [] := ⟨rfl, rfl, rfl, by simp⟩
  obtain ⟨h', l', e, k⟩ := arrRun_ok k0 ps hf
  rw [List.nil_append] at k
  have hb : (ps.filterMap id).map (·.1) = blocks ps := by unfold blocks; rw [List.map_filterMap]; rfl
  obtain ⟨h'', e2⟩ := freeAll_ok k.linked k.nodup ps.length (List.length_filterMap_le _ _)
  exact ⟨h', l', h'', e, by rw [e2, hb], by rw [← hb]; exact k.nodup⟩

/-- Case for `c51_free_arr`. -/
example : ((arrRun (fun _ => none) ⟨0, none, none⟩ [some (5, 70), some (3, 71)]).bind (fun r => (freeAll r.1 2 r.2.head).map (·.2))) = some [5, 3] := by decide

end Verif.Seq
