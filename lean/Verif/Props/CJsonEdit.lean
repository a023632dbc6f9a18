import Verif.Proofs.CJsonEdit
/-
C120: the functions that edit the children of an array or object (src/common/cJSON.c:1956-1985, 2187-2231, 2263-2339).

`Ring h p cs`: in the memory `h` the children of `p` are the items at the addresses `cs`, in this order, each pointing to the next and to the one before, the first one back to the last.
-/
namespace Verif.CJsonMem
open Verif.CJson

variable {V : Type} {h : H V}

/-- Carries out an edit with the function for it; `none` also if the function says no. -/
def perform (h : H V) (p : Nat) : Edit → Option (H V)
  | .append a => (addItem h p a).bind fun r => if r.1 then some r.2 else none
  | .insert i a => (insertAt h p i a).bind fun r => if r.1 then some r.2 else none
  | .remove i => (detachAt h p i).map (·.2)

/-- Carries out a series of edits. -/
def performAll (h : H V) (p : Nat) : List Edit → Option (H V)
  | [] => some h
  | e :: es => (perform h p e).bind fun h => performAll h p es

/-- C120. `cJSON_AddItemToArray`: an item that is in no list becomes the last child; nothing but links changes, and no links but those of the children. -/
theorem c120_append {p a : Nat} {cs : List Nat} {it : Item V} (hr : Ring h p cs) (ha : h.cells a = some (.item it)) (hn : it.next = none) (hp : a ∉ p :: cs) :
    ∃ h', addItem h p a = some (true, h') ∧ Ring h' p (cs ++ [a]) ∧ Relinked p (a :: cs) h h' := addItem_ring hr ha hn hp

/-- C120. `cJSON_DetachItemViaPointer`: wherever in the list the item is, it is taken out and points nowhere; the others stay in their order. -/
theorem c120_detach {p x : Nat} {l r : List Nat} (hr : Ring h p (l ++ x :: r)) :
    ∃ h', detach h p x = some h' ∧ Ring h' p (l ++ r) ∧ Relinked p (l ++ x :: r) h h' ∧ ∃ it, h'.cells x = some (.item it) ∧ it.next = none ∧ it.prev = none := detach_ring hr

/-- C120. `cJSON_InsertItemInArray`: the new item comes before the one with the number `i`; with a number beyond the end it becomes the last one. -/
theorem c120_insert {p a : Nat} {cs : List Nat} {it : Item V} (i : Nat) (hr : Ring h p cs) (ha : h.cells a = some (.item it)) (hn : it.next = none) (hp : a ∉ p :: cs) :
    ∃ h', insertAt h p i a = some (true, h') ∧ Ring h' p (cs.take i ++ a :: cs.drop i) ∧ Relinked p (a :: cs) h h' := by
  by_cases hi : i < cs.length
  · have e : cs = cs.take i ++ cs[i] :: cs.drop (i + 1) := by rw [List.getElem_cons_drop, List.take_append_drop]
    have hl : (cs.take i).length = i := by rw [List.length_take]; omega
    have hg : arrayItem h p (cs.take i).length = some (some cs[i]) := by rw [hl, arrayItem_ring hr, List.getElem?_eq_getElem hi]
    have hr' := hr
    rw [e] at hr' hp
    obtain ⟨h', e1, e2, e3⟩ := insert_ring hr' ha hp hg
    rw [hl] at e1
    refine ⟨h', e1, ?_, ?_⟩
    · rw [List.getElem_cons_drop] at e2; exact e2
    · rw [← e] at e3; exact e3
  · obtain ⟨h', e1, e2, e3⟩ := addItem_ring hr ha hn hp
    refine ⟨h', ?_, ?_, e3⟩
    · rw [insertAt, arrayItem_ring hr, List.getElem?_eq_none (by omega)]; exact e1
    · rw [List.take_of_length_le (by omega), List.drop_of_length_le (by omega)]; exact e2

/-- C120. `cJSON_DetachItemFromArray`: takes out the item with the number `i` and hands it over; without such an item it answers NULL and nothing changes. -/
theorem c120_detachAt {p : Nat} {cs : List Nat} (i : Nat) (hr : Ring h p cs) :
    ∃ h', detachAt h p i = some (cs[i]?, h') ∧ Ring h' p (cs.eraseIdx i) ∧ Relinked p cs h h' ∧ (cs.length ≤ i → h' = h) ∧
      ∀ x, cs[i]? = some x → ∃ it, h'.cells x = some (.item it) ∧ it.next = none ∧ it.prev = none := by
  by_cases hi : i < cs.length
  · have e : cs = cs.take i ++ cs[i] :: cs.drop (i + 1) := by rw [List.getElem_cons_drop, List.take_append_drop]
    have hr' := hr
    rw [e] at hr'
    obtain ⟨h', e1, e2, e3, e4⟩ := detach_ring hr'
    rw [← e] at e3
    refine ⟨h', ?_, ?_, e3, fun hx => by omega, fun x hx => ?_⟩
    · rw [detachAt, arrayItem_ring hr, List.getElem?_eq_getElem hi, Option.bind_some]
      dsimp only
      rw [e1]; rfl
    · rw [List.eraseIdx_eq_take_drop_succ]; exact e2
    · rw [List.getElem?_eq_getElem hi] at hx
      cases hx
      exact e4
  · refine ⟨h, ?_, ?_, Relinked.refl p cs h, fun _ => rfl, fun x hx => ?_⟩
    · rw [detachAt, arrayItem_ring hr, List.getElem?_eq_none (by omega)]; rfl
    · rw [List.eraseIdx_of_length_le (by omega)]; exact hr
    · rw [List.getElem?_eq_none (by omega)] at hx; cases hx

/-- C120. `cJSON_ReplaceItemViaPointer`: the new item takes the place of the old one, and everything that the old one owned is freed, nothing else and nothing twice. -/
theorem c120_replace {p x a : Nat} {l r : List Nat} {it : Item V} {nm : Option (List UInt8)} {j : J V} {S : List Nat} {q : Option Nat} (hr : Ring h p (l ++ x :: r))
    (ha : h.cells a = some (.item it)) (hap : a ∉ p :: (l ++ x :: r)) (hs : Seg h (some x) [(nm, j)] S q) (nd : S.Nodup) (hS : ∀ b ∈ S, b ≠ x → b ∉ a :: p :: (l ++ r)) (hf : Fresh h) :
    ∃ h1 h', replace h p x a = some (true, h') ∧ Ring h' p (l ++ a :: r) ∧ Relinked p (a :: (l ++ x :: r)) h h1 ∧ h'.used = h.used ∧ ∀ b, h'.cells b = if b ∈ S then none else h1.cells b :=
  replace_ring hr ha hap hs nd hS hf

/-- C120. Replacing an item by itself does nothing. -/
theorem c120_replace_self (p x : Nat) : replace h p x x = some (true, h) := by rw [replace, if_pos rfl]

/-- C120. `cJSON_AddItemToArray` refuses to make an item its own child. -/
theorem c120_append_self (p : Nat) : addItem h p p = some (false, h) := by rw [addItem, if_pos rfl]

theorem perform_ok {p : Nat} {cs loose : List Nat} (e : Edit) (hr : Ring h p cs) (hl : Loose h p cs loose) (hf : e.fair (cs, loose)) :
    ∃ h', perform h p e = some h' ∧ Ring h' p (e.on (cs, loose)).1 ∧ Loose h' p (e.on (cs, loose)).1 (e.on (cs, loose)).2 ∧
      ((e.on (cs, loose)).1 ++ (e.on (cs, loose)).2).Perm (cs ++ loose) ∧ Relinked p (cs ++ loose) h h' := by
  have put : ∀ (a : Nat) (cs' : List Nat) (h' : H V), a ∈ loose → cs'.Perm (a :: cs) → Relinked p (a :: cs) h h' →
      Loose h' p cs' (loose.erase a) ∧ (cs' ++ loose.erase a).Perm (cs ++ loose) ∧ Relinked p (cs ++ loose) h h' := by
    intro a cs' h' ha hp hrel
    refine ⟨⟨hl.1.erase a, fun b hb => ?_⟩, ?_, hrel.mono fun b hb => ?_⟩
    · rw [hl.1.mem_erase_iff] at hb
      obtain ⟨hb1, it, hb2, hb3⟩ := hl.2 b hb.2
      simp only [List.mem_cons, not_or] at hb1
      refine ⟨?_, it, ?_, hb3⟩
      · rw [List.mem_cons, hp.mem_iff, List.mem_cons]
        simp [hb1, hb.1]
      · rw [hrel.2.1 b hb1.1 (by simp [hb.1, hb1])]; exact hb2
    · exact (hp.append_right _).trans (((List.perm_middle (a := a)).symm).trans ((List.perm_cons_erase ha).symm.append_left cs))
    · rcases List.mem_cons.mp hb with rfl | hb
      · simp [ha]
      · simp [hb]
  cases e with
  | append a =>
    obtain ⟨h1, it, h2, h3⟩ := hl.2 a hf
    obtain ⟨h', e1, e2, e3⟩ := c120_append hr h2 h3 h1
    refine ⟨h', by rw [perform, e1]; rfl, e2, ?_⟩
    exact put a (cs ++ [a]) h' hf List.perm_append_comm e3
  | insert i a =>
    obtain ⟨h1, it, h2, h3⟩ := hl.2 a hf
    obtain ⟨h', e1, e2, e3⟩ := c120_insert i hr h2 h3 h1
    refine ⟨h', by rw [perform, e1]; rfl, e2, ?_⟩
    exact put a (cs.take i ++ a :: cs.drop i) h' hf (List.perm_middle.trans (by rw [List.take_append_drop])) e3
  | remove i =>
    obtain ⟨h', e1, e2, e3, e4, e5⟩ := c120_detachAt i hr
    refine ⟨h', by rw [perform, e1]; rfl, ?_⟩
    cases hg : cs[i]? with
    | none =>
      have hle : cs.length ≤ i := List.getElem?_eq_none_iff.mp hg
      rw [e4 hle]
      simp only [Edit.on, hg]
      exact ⟨hr, hl, List.Perm.refl _, Relinked.refl p _ h⟩
    | some x =>
      simp only [Edit.on, hg]
      obtain ⟨hi, hx⟩ := List.getElem?_eq_some_iff.mp hg
      have hperm : (x :: cs.eraseIdx i).Perm cs := by rw [← hx]; exact List.getElem_cons_eraseIdx_perm hi
      have hxcs : x ∈ cs := hperm.mem_iff.mp (by simp)
      have hpx : x ≠ p := fun e => (List.nodup_cons.mp hr.1).1 (e ▸ hxcs)
      have hxe : x ∉ cs.eraseIdx i := (List.nodup_cons.mp (hperm.nodup_iff.mpr (List.nodup_cons.mp hr.1).2)).1
      refine ⟨e2, ⟨List.nodup_cons.mpr ⟨fun hm => (hl.2 x hm).1 (by simp [hxcs]), hl.1⟩, fun b hb => ?_⟩, ?_, e3.mono fun b hb => by simp [hb]⟩
      · rcases List.mem_cons.mp hb with rfl | hb
        · obtain ⟨it, f1, f2, -⟩ := e5 b hg
          exact ⟨by simp [hpx, hxe], it, f1, f2⟩
        · obtain ⟨hb1, it, hb2, hb3⟩ := hl.2 b hb
          simp only [List.mem_cons, not_or] at hb1
          refine ⟨?_, it, by rw [e3.2.1 b hb1.1 hb1.2]; exact hb2, hb3⟩
          simp only [List.mem_cons, not_or]
          exact ⟨hb1.1, fun hm => hb1.2 (List.mem_of_mem_eraseIdx hm)⟩
      · exact (List.perm_middle (a := x)).trans (hperm.append_right loose)

/-- C120. Any series of edits of an array, in which only items are put in that are in no list, goes through without touching memory that is not there; in the end the children are those that
the edits leave in a list, in the same order and linked in both directions, and nothing but links has changed. -/
theorem c120_series {p : Nat} : ∀ (es : List Edit) {h : H V} {cs loose : List Nat}, Ring h p cs → Loose h p cs loose → fairAll es (cs, loose) →
    ∃ h', performAll h p es = some h' ∧ Ring h' p (es.foldl (fun s e => e.on s) (cs, loose)).1 ∧ Relinked p (cs ++ loose) h h'
  | [], h, cs, loose, hr, _, _ => ⟨h, rfl, hr, Relinked.refl p _ h⟩
  | e :: es, h, cs, loose, hr, hl, hf => by
    obtain ⟨h1, e1, e2, e3, e4, e5⟩ := perform_ok e hr hl hf.1
    obtain ⟨h', f1, f2, f3⟩ := c120_series es e2 e3 hf.2
    refine ⟨h', by rw [performAll, e1, Option.bind_some, f1], f2, e5.trans (f3.mono fun b hb => e4.mem_iff.mp hb)⟩

/-- C120. After any series of edits `cJSON_GetArrayItem` gives what a list would give. -/
theorem c120_series_item {p : Nat} {cs loose : List Nat} (es : List Edit) (hr : Ring h p cs) (hl : Loose h p cs loose) (hf : fairAll es (cs, loose)) (i : Nat) :
    ∃ h', performAll h p es = some h' ∧ arrayItem h' p i = some (es.foldl (fun s e => e.on s) (cs, loose)).1[i]? := by
  obtain ⟨h', e1, e2, -⟩ := c120_series es hr hl hf
  exact ⟨h', e1, arrayItem_ring e2 i⟩

/-- C120. Nor does it hold for a list whose first item does not point back to its last one, as `cJSON_CreateArrayReference` makes from an item that is in no list: the answer is that the item
was added, but nothing has changed. -/
theorem c120_append_unlinked_counterexample {p c a : Nat} {par first : Item V} (hp : h.cells p = some (.item par)) (hc : par.child = some c) (hf : h.cells c = some (.item first))
    (hn : first.prev = none) (hpa : p ≠ a) : addItem h p a = some (true, h) := by
  rw [addItem, if_neg hpa, item_eq hp, Option.bind_some, hc]
  dsimp only
  rw [item_eq hf, Option.bind_some, hn]

/-- C120. The condition is needed: an item that still is a child of another array (`it.next` is not NULL) drags the rest of that list along: whatever followed it becomes reachable from the new
array too. -/
theorem c120_append_shared_counterexample {p c a b : Nat} {it : Item V} (hr : Ring h p [c]) (ha : h.cells a = some (.item it)) (hn : it.next = some b) (hp : a ∉ [p, c]) :
    ∃ h', addItem h p a = some (true, h') ∧ arrayItem h' p 2 = some (some b) ∧ ¬ Ring h' p [c, a] := by
  obtain ⟨nd, ⟨par, ep, hc⟩, ⟨⟨itc, ec, pc, nc⟩, -⟩⟩ := hr
  have hc : par.child = some c := hc
  have pc : itc.prev = some c := pc
  simp only [List.mem_cons, List.not_mem_nil, or_false, not_or] at hp
  have hpc : p ≠ c := by simpa using (List.nodup_cons.mp nd).1
  have h2 : nth ((((h.set c (some (.item { itc with next := some a }))).set a (some (.item { it with prev := some c }))).set c
      (some (.item { itc with next := some a, prev := some a })))) (some c) 2 = some (some b) := by
    rw [nth, item_eq (it := { itc with next := some a, prev := some a }) (by simp [set_cells]), Option.bind_some, nth,
      item_eq (it := { it with prev := some c }) (by simp [set_cells, hp.2]), Option.bind_some, hn]
    rfl
  have h3 : arrayItem ((((h.set c (some (.item { itc with next := some a }))).set a (some (.item { it with prev := some c }))).set c
      (some (.item { itc with next := some a, prev := some a })))) p 2 = some (some b) := by
    rw [arrayItem, item_eq (it := par) (by simp [set_cells, hpc, Ne.symm hp.1, ep]), Option.bind_some, hc, h2]
  refine ⟨_, ?_, h3, fun hR => ?_⟩
  · rw [addItem, if_neg (Ne.symm hp.1), item_eq ep, Option.bind_some, hc]
    dsimp only
    rw [item_eq ec, Option.bind_some, pc]
    dsimp only
    rw [upd_eq ec, Option.bind_some, upd_eq (p := a) (it := it) (by simp [set_cells, hp.2, ha]), Option.bind_some,
      upd_eq (p := c) (it := { itc with next := some a }) (by simp [set_cells, Ne.symm hp.2])]
    simp [pc]
  · rw [arrayItem_ring hR] at h3
    cases h3

/-! Examples -/

/-- An array at 0 with the numbers 10, 11, 12 at 1, 2, 3; two loose items at 4 and 5. -/
def shelf : H Nat := ⟨6, fun a => match a with
  | 0 => some (.item ⟨.array, none, none, some 1, none, none⟩)
  | 1 => some (.item ⟨.num 10, some 2, some 3, none, none, none⟩)
  | 2 => some (.item ⟨.num 11, some 3, some 1, none, none, none⟩)
  | 3 => some (.item ⟨.num 12, none, some 2, none, none, none⟩)
  | 4 => some (.item ⟨.num 13, none, none, none, none, none⟩)
  | 5 => some (.item ⟨.num 14, none, none, none, none, none⟩)
  | _ => none⟩

theorem shelf_ring : Ring shelf 0 [1, 2, 3] := ⟨by decide, ⟨_, rfl, rfl⟩, ⟨_, rfl, rfl, rfl⟩, ⟨_, rfl, rfl, rfl⟩, ⟨_, rfl, rfl, rfl⟩, trivial⟩

theorem shelf_loose : Loose shelf 0 [1, 2, 3] [4, 5] := by
  refine ⟨by decide, fun a ha => ?_⟩
  simp only [List.mem_cons, List.not_mem_nil, or_false] at ha
  rcases ha with rfl | rfl
  · exact ⟨by decide, _, rfl, rfl⟩
  · exact ⟨by decide, _, rfl, rfl⟩

example : ∃ h', addItem shelf 0 4 = some (true, h') ∧ Ring h' 0 [1, 2, 3, 4] ∧ Relinked 0 [4, 1, 2, 3] shelf h' := c120_append shelf_ring rfl rfl (by decide)
example : ∃ h', detach shelf 0 2 = some h' ∧ Ring h' 0 [1, 3] ∧ Relinked 0 [1, 2, 3] shelf h' ∧ ∃ it, h'.cells 2 = some (.item it) ∧ it.next = none ∧ it.prev = none :=
  c120_detach (l := [1]) (r := [3]) shelf_ring
example : ∃ h', insertAt shelf 0 1 4 = some (true, h') ∧ Ring h' 0 [1, 4, 2, 3] ∧ Relinked 0 [4, 1, 2, 3] shelf h' := c120_insert 1 shelf_ring rfl rfl (by decide)
example : ∃ h', detachAt shelf 0 2 = some (some 3, h') ∧ Ring h' 0 [1, 2] := by
  obtain ⟨h', e1, e2, -⟩ := c120_detachAt 2 shelf_ring
  exact ⟨h', e1, e2⟩
example : ∃ h1 h', replace shelf 0 3 5 = some (true, h') ∧ Ring h' 0 [1, 2, 5] ∧ Relinked 0 [5, 1, 2, 3] shelf h1 ∧ h'.used = 6 ∧ ∀ b, h'.cells b = if b ∈ [3] then none else h1.cells b :=
  c120_replace (l := [1, 2]) (r := []) (nm := none) (j := .num 12) (q := none) shelf_ring rfl (by decide) (.plain (Sn := []) (Sv := []) rfl ⟨rfl, rfl⟩ ⟨rfl, rfl, rfl⟩ rfl (.nil none))
    (by decide) (by decide) (by intro a ha; have : 6 ≤ a := ha; obtain ⟨k, rfl⟩ : ∃ k, a = k + 6 := ⟨a - 6, by omega⟩; rfl)
example : replace shelf 0 2 2 = some (true, shelf) := c120_replace_self 0 2
example : addItem shelf 0 0 = some (false, shelf) := c120_append_self 0
theorem walk : fairAll [.remove 0, .insert 0 5, .append 1, .remove 1] ([1, 2, 3], [4, 5]) := by simp [fairAll, Edit.fair, Edit.on]

/-- Take the first one out, put 5 in front, put the first one back at the end, take out the second. -/
example : ∃ h', performAll shelf 0 [.remove 0, .insert 0 5, .append 1, .remove 1] = some h' ∧ Ring h' 0 [5, 3, 1] ∧ Relinked 0 [1, 2, 3, 4, 5] shelf h' :=
  c120_series _ shelf_ring shelf_loose walk
example : ∃ h', performAll shelf 0 [.remove 0, .insert 0 5, .append 1, .remove 1] = some h' ∧ arrayItem h' 0 2 = some (some 1) :=
  c120_series_item _ shelf_ring shelf_loose walk 2
/-- An array at 4 with one item, given the first one of the array at 0. -/
def twoShelves : H Nat := ⟨6, fun a => match a with
  | 4 => some (.item ⟨.array, none, none, some 5, none, none⟩)
  | 5 => some (.item ⟨.num 13, none, some 5, none, none, none⟩)
  | a => shelf.cells a⟩
example : ∃ h', addItem twoShelves 4 1 = some (true, h') ∧ arrayItem h' 4 2 = some (some 2) ∧ ¬ Ring h' 4 [5, 1] :=
  c120_append_shared_counterexample (it := ⟨.num 10, some 2, some 3, none, none, none⟩) ⟨by decide, ⟨_, rfl, rfl⟩, ⟨_, rfl, rfl, rfl⟩, trivial⟩ rfl rfl (by decide)

/-- Two items of no list, one of them the child of the third. -/
def unlinked : H Int := ⟨3, fun a => match a with
  | 0 => some (.item ⟨.array, none, none, some 1, none, none⟩)
  | 1 => some (.item ⟨.num 1, none, none, none, none, none⟩)
  | 2 => some (.item ⟨.num 2, none, none, none, none, none⟩)
  | _ => none⟩

example : addItem unlinked 0 2 = some (true, unlinked) := c120_append_unlinked_counterexample rfl rfl rfl rfl (by decide)

end Verif.CJsonMem
