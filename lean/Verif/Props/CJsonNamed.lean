import Verif.Proofs.CJsonNamed
import Verif.Props.CJsonEdit
/-
C121: editing the members of an object by name (src/common/cJSON.c:2011-2047, 2238-2243, 2351-2372).

`Ring h p cs` as in C120. `names c` is the name of the member `c`.
-/
namespace Verif.CJsonMem
open Verif.CJson

variable {V : Type} {h : H V} {ok : Nat → Bool}

/-- C121. `cJSON_AddItemToObject`: the item becomes the last member; its name is a new copy of the name given, up to the first zero byte; its old name is freed; its value stays, and so does
everything else. The name given may be the old name of the item itself. -/
theorem c121_add {p s a : Nat} {cs : List Nat} {it : Item V} {nm : List UInt8} (hr : Ring h p cs) (ha : h.cells a = some (.item it)) (hn : it.next = none) (hp : a ∉ p :: cs)
    (hs : h.cells s = some (.bytes nm)) (ho : ∀ o, it.str = some o → ∃ bs, h.cells o = some (.bytes bs)) (hf : Fresh h) (hok : ok h.used = true) :
    ∃ h' it', addNamed ok h p s a = some (true, h') ∧ Ring h' p (cs ++ [a]) ∧ h'.cells a = some (.item it') ∧ it'.str = some h.used ∧
      h'.cells h.used = some (.bytes (nm.takeWhile (· ≠ 0))) ∧ it'.ty = it.ty ∧ it'.vstr = it.vstr ∧ it'.child = it.child ∧ (∀ o, it.str = some o → h'.cells o = none) ∧
      ∀ b, b ∉ a :: p :: cs → b ≠ h.used → it.str ≠ some b → h'.cells b = h.cells b := by
  have hpa : p ≠ a := fun e => hp (by simp [e])
  have hua : a ≠ h.used := live_ne hf ha
  obtain ⟨h2, e2, u2, c2⟩ := freeOpt_name (h := { used := h.used + 1, cells := fun b => if b = h.used then some (.bytes (nm.takeWhile (· ≠ 0))) else h.cells b }) (o := it.str) (by
    intro b hb
    obtain ⟨bs, e⟩ := ho b hb
    exact ⟨bs, by simp [live_ne hf e, e]⟩)
  have hao : it.str ≠ some a := fun e => by
    obtain ⟨bs, e⟩ := ho a e
    rw [ha] at e
    cases e
  have huo : it.str ≠ some h.used := fun e => by
    obtain ⟨bs, e⟩ := ho _ e
    exact live_ne hf e rfl
  have c2' : ∀ b, it.str ≠ some b → b ≠ h.used → h2.cells b = h.cells b := by
    intro b h1 h2
    rw [c2, if_neg h1]
    simp [h2]
  have hR : Ring (h2.set a (some (.item { it with str := some h.used }))) p cs := by
    refine hr.congr fun b hb => ?_
    obtain ⟨itb, eb⟩ := hr.live b hb
    rw [set_cells, if_neg (by rintro rfl; exact hp hb)]
    refine c2' b (fun e => ?_) (live_ne hf eb)
    obtain ⟨bs, e'⟩ := ho b e
    rw [eb] at e'
    cases e'
  obtain ⟨h', e', R', L1, L2, L3⟩ := addItem_ring (a := a) (it := { it with str := some h.used }) hR (by rw [set_cells, if_pos rfl]) hn hp
  obtain ⟨n, q, c, ea, hc⟩ := L3 a { it with str := some h.used } (by rw [set_cells, if_pos rfl])
  have keep : ∀ b, b ∉ a :: p :: cs → h'.cells b = h2.cells b := by
    intro b hb
    simp only [List.mem_cons, not_or] at hb
    rw [L2 b hb.2.1 (by simp [hb]), set_cells, if_neg hb.1]
  have live : ∀ b ∈ a :: p :: cs, ∃ itb, h.cells b = some (.item itb) := by
    intro b hb
    rcases List.mem_cons.mp hb with rfl | hb
    · exact ⟨it, ha⟩
    · exact hr.live b hb
  refine ⟨h', _, ?_, R', ea, rfl, ?_, rfl, rfl, hc (Ne.symm hpa), fun o ho' => ?_, fun b h1 h2 h3 => ?_⟩
  · rw [addNamed, if_neg hpa, strdup_ok hs hok, Option.bind_some]
    dsimp only
    rw [if_pos rfl, item_eq (it := it) (by simp [hua, ha]), Option.bind_some, e2, Option.bind_some, upd_eq (it := it) (by rw [c2' a hao hua]; exact ha), Option.bind_some, e']
  · rw [keep _ (fun hb => by obtain ⟨itb, eb⟩ := live _ hb; exact live_ne hf eb rfl), c2, if_neg huo]
    simp
  · rw [keep o (fun hb => by obtain ⟨itb, eb⟩ := live _ hb; obtain ⟨bs, e⟩ := ho o ho'; rw [eb] at e; cases e), c2, if_pos ho']
  · rw [keep b h1, c2' b h3 h2]

/-- C121. Without memory for the name `cJSON_AddItemToObject` says no, and nothing has changed but the number of allocations asked for. -/
theorem c121_add_no_memory {p s a : Nat} {nm : List UInt8} (hp : p ≠ a) (hs : h.cells s = some (.bytes nm)) (hok : ok h.used = false) :
    addNamed ok h p s a = some (false, { h with used := h.used + 1 }) := by
  rw [addNamed, if_neg hp, strdup_no hs hok]
  rfl

/-- C121. `cJSON_AddItemToObject` refuses to make an object its own member. -/
theorem c121_add_self (p s : Nat) : addNamed ok h p s p = some (false, h) := by rw [addNamed, if_pos rfl]

/-- C121. `cJSON_DetachItemFromObject` takes out the first member that has the name, in any case, and hands it over; without one it answers NULL and nothing has changed. -/
theorem c121_detach {p n : Nat} {cs : List Nat} (nm : List UInt8) (names : Nat → List UInt8) (hr : Ring h p cs)
    (hn : ∀ c ∈ cs, ∃ it b, h.cells c = some (.item it) ∧ it.str = some b ∧ h.cells b = some (.bytes (names c))) (hl : cs.length ≤ n) :
    (∃ l x r h', cs = l ++ x :: r ∧ (∀ c ∈ l, Config.same nm (names c) = false) ∧ Config.same nm (names x) = true ∧ detachNamed n h p nm = some (some x, h') ∧ Ring h' p (l ++ r) ∧
      Relinked p cs h h' ∧ ∃ it, h'.cells x = some (.item it) ∧ it.next = none ∧ it.prev = none) ∨
    ((∀ c ∈ cs, Config.same nm (names c) = false) ∧ detachNamed n h p nm = some (none, h)) := by
  rw [detachNamed, objectItem_ring hr nm names n hn hl, Option.bind_some]
  cases hfi : cs.find? fun c => Config.same nm (names c) with
  | none =>
    right
    exact ⟨fun c hc => by simpa using List.find?_eq_none.mp hfi c hc, rfl⟩
  | some x =>
    left
    obtain ⟨hx, l, r, rfl, hlt⟩ := List.find?_eq_some_iff_append.mp hfi
    obtain ⟨h', e1, e2, e3, e4⟩ := detach_ring hr
    exact ⟨l, x, r, h', rfl, fun c hc => by simpa using hlt c hc, hx, by simp [e1], e2, e3, e4⟩

/-- C121. Without memory for the name `cJSON_ReplaceItemInObject` says no, and no member has changed; but the replacement has lost the name it had. -/
theorem c121_replace_no_memory {p s a n : Nat} {it : Item V} {nm : List UInt8} (ha : h.cells a = some (.item it)) (hs : h.cells s = some (.bytes nm)) (hso : it.str ≠ some s)
    (ho : ∀ o, it.str = some o → ∃ bs, h.cells o = some (.bytes bs)) (hok : ok h.used = false) :
    ∃ h', replaceNamed ok n h p s a = some (false, h') ∧ h'.cells a = some (.item { it with str := none }) ∧ (∀ o, it.str = some o → h'.cells o = none) ∧
      ∀ b, b ≠ a → it.str ≠ some b → h'.cells b = h.cells b := by
  have hao : it.str ≠ some a := fun e => by
    obtain ⟨bs, e⟩ := ho a e
    rw [ha] at e
    cases e
  obtain ⟨h1, e1, u1, c1⟩ := freeOpt_name ho
  have hs1 : h1.cells s = some (.bytes nm) := by rw [c1, if_neg hso]; exact hs
  have e2 := strdup_no (ok := ok) hs1 (by rw [u1]; exact hok)
  rw [replaceNamed, item_eq ha, Option.bind_some, e1, Option.bind_some, e2, Option.bind_some]
  dsimp only
  rw [upd_eq (it := it) (by simp [c1, hao, ha]), Option.bind_some]
  refine ⟨_, rfl, by rw [set_cells, if_pos rfl], fun o hoo => ?_, fun b hb hbo => ?_⟩
  · rw [set_cells, if_neg (by rintro rfl; exact hao hoo)]
    simp [c1, hoo]
  · rw [set_cells, if_neg hb]
    simp [c1, hbo]

/-- C121. `cJSON_ReplaceItemInObject` with a name that is not the block with the replacement's own name: the first member that has the name gives way to the replacement, which gets a copy of the
name; what the old member owned is freed. Without such a member the answer is no, and the members stay. -/
theorem c121_replace_partial {p s a n : Nat} {cs : List Nat} {it : Item V} {nm : List UInt8} (names : Nat → List UInt8) (own : Nat → List Nat) (hr : Ring h p cs) (ha : h.cells a = some (.item it)) (hp : a ∉ p :: cs)
    (hs : h.cells s = some (.bytes nm)) (hso : it.str ≠ some s) (ho : ∀ o, it.str = some o → ∃ bs, h.cells o = some (.bytes bs)) (hf : Fresh h) (hok : ok h.used = true)
    (hn : ∀ c ∈ cs, ∃ itc b, h.cells c = some (.item itc) ∧ itc.str = some b ∧ it.str ≠ some b ∧ h.cells b = some (.bytes (names c))) (hl : cs.length ≤ n)
    (hv : ∀ x ∈ cs, ∃ m j q, Seg h (some x) [(m, j)] (own x) q ∧ (own x).Nodup ∧ (∀ b ∈ own x, b ≠ x → b ∉ a :: p :: cs) ∧ ∀ b ∈ own x, it.str ≠ some b) :
    (∃ l x r h' itn, cs = l ++ x :: r ∧ (∀ c ∈ l, Config.same nm (names c) = false) ∧ Config.same nm (names x) = true ∧ replaceNamed ok n h p s a = some (true, h') ∧ Ring h' p (l ++ a :: r) ∧
      h'.cells a = some (.item itn) ∧ itn.str = some h.used ∧ h'.cells h.used = some (.bytes (nm.takeWhile (· ≠ 0))) ∧ itn.ty = it.ty ∧ itn.vstr = it.vstr ∧ itn.child = it.child ∧
      ∀ b ∈ own x, h'.cells b = none) ∨
    ((∀ c ∈ cs, Config.same nm (names c) = false) ∧ ∃ h', replaceNamed ok n h p s a = some (false, h') ∧ Ring h' p cs) := by
  have hpa : p ≠ a := fun e => hp (by simp [e])
  have hua : a ≠ h.used := live_ne hf ha
  have hao : it.str ≠ some a := fun e => by
    obtain ⟨bs, e⟩ := ho a e
    rw [ha] at e
    cases e
  have huo : it.str ≠ some h.used := fun e => by
    obtain ⟨bs, e⟩ := ho _ e
    exact live_ne hf e rfl
  obtain ⟨h1, e1, u1, c1⟩ := freeOpt_name ho
  have hs1 : h1.cells s = some (.bytes nm) := by rw [c1, if_neg hso]; exact hs
  have e2 := strdup_ok (ok := ok) hs1 (by rw [u1]; exact hok)
  rw [u1] at e2
  have hsu : s ≠ h.used := live_ne hf hs
  have hsa : s ≠ a := fun e => by rw [e, ha] at hs; cases hs
  rw [replaceNamed, item_eq ha, Option.bind_some, e1, Option.bind_some, e2, Option.bind_some]
  dsimp only
  rw [upd_eq (it := it) (by simp [hua, c1, hao, ha]), Option.bind_some, if_pos rfl]
  generalize hh3 : H.set _ a _ = h3
  have c3 : ∀ b, b ≠ a → b ≠ h.used → it.str ≠ some b → h3.cells b = h.cells b := by
    intro b x y z
    rw [← hh3, set_cells, if_neg x]
    simp [y, c1, z]
  have u3 : h3.used = h.used + 1 := by rw [← hh3]; rfl
  have ca : h3.cells a = some (.item { it with str := some h.used }) := by rw [← hh3, set_cells, if_pos rfl]
  have cu : h3.cells h.used = some (.bytes (nm.takeWhile (· ≠ 0))) := by
    rw [← hh3, set_cells, if_neg (Ne.symm hua)]
    simp
  rw [c3 s hsa hsu hso, hs]
  dsimp only
  have cr : ∀ b ∈ p :: cs, h3.cells b = h.cells b := by
    intro b hb
    obtain ⟨itb, eb⟩ := hr.live b hb
    refine c3 b (by rintro rfl; exact hp hb) (live_ne hf eb) fun e => ?_
    obtain ⟨bs, e'⟩ := ho b e
    rw [eb] at e'
    cases e'
  have hR : Ring h3 p cs := hr.congr cr
  have hn3 : ∀ c ∈ cs, ∃ itc b, h3.cells c = some (.item itc) ∧ itc.str = some b ∧ h3.cells b = some (.bytes (names c)) := by
    intro c hc
    obtain ⟨itc, b, x1, x2, x3, x4⟩ := hn c hc
    refine ⟨itc, b, by rw [cr c (by simp [hc])]; exact x1, x2, ?_⟩
    rw [c3 b (fun e => by rw [e, ha] at x4; cases x4) (live_ne hf x4) x3]
    exact x4
  rw [objectItem_ring hR nm names n hn3 hl, Option.bind_some]
  cases hfi : cs.find? fun c => Config.same nm (names c) with
  | none =>
    right
    exact ⟨fun c hc => by simpa using List.find?_eq_none.mp hfi c hc, h3, rfl, hR⟩
  | some x =>
    left
    obtain ⟨hx, l, r, rfl, hlt⟩ := List.find?_eq_some_iff_append.mp hfi
    obtain ⟨m, j, q, hseg, nd, hS, hSo⟩ := hv x (by simp)
    have liveS : ∀ b ∈ own x, h3.cells b = h.cells b := by
      intro b hb
      by_cases hbx : b = x
      · subst hbx; exact cr b (by simp)
      · have := hS b hb hbx
        simp only [List.mem_cons, not_or] at this
        refine c3 b this.1 (fun e => ?_) (hSo b hb)
        have := seg_live hseg b hb
        rw [e, hf _ (Nat.le_refl _)] at this
        cases this
    have hf3 : Fresh h3 := by
      intro b hb
      rw [u3] at hb
      have hb0 : h.cells b = none := hf b (by omega)
      by_cases hz : it.str = some b
      · obtain ⟨bs, e⟩ := ho b hz
        rw [hb0] at e
        cases e
      · rw [c3 b (fun e => by rw [e, ha] at hb0; cases hb0) (by omega) hz]
        exact hb0
    obtain ⟨h4, h', f1, f2, f3, f4, f5⟩ := replace_ring (a := a) hR ca hp (hseg.congr liveS) nd (fun b hb hbx => by
      have := hS b hb hbx
      simp only [List.mem_cons, List.mem_append, not_or] at this ⊢
      exact ⟨this.1, this.2.1, this.2.2.1, this.2.2.2.2⟩) hf3
    obtain ⟨nn, qq, cc, g1, g2⟩ := f3.2.2 a _ ca
    have haS : a ∉ own x := fun hb => by
      have hax : a ≠ x := fun e => hp (by simp [e])
      exact hS a hb hax (by simp)
    have huS : h.used ∉ own x := fun hb => by
      have := seg_live hseg _ hb
      rw [hf _ (Nat.le_refl _)] at this
      cases this
    refine ⟨l, x, r, h', { it with str := some h.used, next := nn, prev := qq, child := cc }, rfl, fun c hc => by simpa using hlt c hc, hx, f1, f2, ?_, rfl, ?_, rfl, rfl, g2 (Ne.symm hpa), fun b hb => by rw [f5, if_pos hb]⟩
    · rw [f5, if_neg haS]; exact g1
    · rw [f5, if_neg huS, f3.2.1 _ (fun e => ?_) (fun hm => ?_)]
      · exact cu
      · obtain ⟨itb, eb⟩ := hr.live p (by simp)
        exact live_ne hf eb e.symm
      · rcases List.mem_cons.mp hm with e | hm
        · exact hua e.symm
        · obtain ⟨itb, eb⟩ := hr.live h.used (List.mem_cons_of_mem p hm)
          exact live_ne hf eb rfl

/-- C121. The condition is needed: given the replacement's own name (`cJSON_ReplaceItemInObject(object, item->string, item)`), the name is freed before it is copied. -/
theorem c121_replace_own_name_counterexample {p s a n : Nat} {it : Item V} {nm : List UInt8} (ha : h.cells a = some (.item it)) (hs : h.cells s = some (.bytes nm)) (hso : it.str = some s) :
    replaceNamed ok n h p s a = none := by
  rw [replaceNamed, item_eq ha, Option.bind_some, hso, freeOpt, free, if_pos (by rw [hs]; rfl), Option.bind_some, strdup, set_cells, if_pos rfl]
  rfl

/-! Examples -/

/-- An object at 0 with the members `k` (at 1) and `m` (at 2), their names at 3 and 4; a loose item at 5 with the name `z` at 6; a name `M` of the caller at 7. -/
def desk : H Nat := ⟨8, fun a => match a with
  | 0 => some (.item ⟨.object, none, none, some 1, none, none⟩)
  | 1 => some (.item ⟨.num 10, some 2, some 2, none, none, some 3⟩)
  | 2 => some (.item ⟨.num 11, none, some 1, none, none, some 4⟩)
  | 3 => some (.bytes [107])
  | 4 => some (.bytes [109])
  | 5 => some (.item ⟨.num 12, none, none, none, none, some 6⟩)
  | 6 => some (.bytes [122])
  | 7 => some (.bytes [77])
  | _ => none⟩

theorem desk_ring : Ring desk 0 [1, 2] := ⟨by decide, ⟨_, rfl, rfl⟩, ⟨_, rfl, rfl, rfl⟩, ⟨_, rfl, rfl, rfl⟩, trivial⟩
theorem desk_fresh : Fresh desk := by intro a ha; have : 8 ≤ a := ha; obtain ⟨k, rfl⟩ : ∃ k, a = k + 8 := ⟨a - 8, by omega⟩; rfl
/-- The names of the members of `desk`. -/
def deskNames (c : Nat) : List UInt8 := if c = 1 then [107] else [109]

example : ∃ h' it', addNamed (fun _ => true) desk 0 7 5 = some (true, h') ∧ Ring h' 0 [1, 2, 5] ∧ h'.cells 5 = some (.item it') ∧ it'.str = some 8 ∧ h'.cells 8 = some (.bytes [77]) ∧
    h'.cells 6 = none := by
  obtain ⟨h', it', e1, e2, e3, e4, e5, -, -, -, e9, -⟩ := c121_add (ok := fun _ => true) (it := ⟨.num 12, none, none, none, none, some 6⟩) desk_ring (a := 5) (s := 7) rfl rfl (by decide) rfl
    (by rintro o ⟨⟩; exact ⟨_, rfl⟩) desk_fresh rfl
  exact ⟨h', it', e1, e2, e3, e4, e5, e9 6 rfl⟩
/-- The name given is the item's own. -/
example : ∃ h' it', addNamed (fun _ => true) desk 0 6 5 = some (true, h') ∧ h'.cells 5 = some (.item it') ∧ it'.str = some 8 ∧ h'.cells 8 = some (.bytes [122]) := by
  obtain ⟨h', it', e1, e2, e3, e4, e5, -⟩ := c121_add (ok := fun _ => true) (it := ⟨.num 12, none, none, none, none, some 6⟩) desk_ring (a := 5) (s := 6) rfl rfl (by decide) rfl
    (by rintro o ⟨⟩; exact ⟨_, rfl⟩) desk_fresh rfl
  exact ⟨h', it', e1, e3, e4, e5⟩
example : addNamed (fun _ => false) desk 0 7 5 = some (false, { desk with used := 9 }) := c121_add_no_memory (by decide) (nm := [77]) rfl rfl
example : addNamed (fun _ => true) desk 0 7 0 = some (false, desk) := c121_add_self 0 7

theorem desk_names : ∀ c ∈ [1, 2], ∃ it b, desk.cells c = some (.item it) ∧ it.str = some b ∧ desk.cells b = some (.bytes (deskNames c)) := by
  intro c hc
  simp only [List.mem_cons, List.not_mem_nil, or_false] at hc
  rcases hc with rfl | rfl
  · exact ⟨_, 3, rfl, rfl, rfl⟩
  · exact ⟨_, 4, rfl, rfl, rfl⟩

/-- `M` finds the member `m`. -/
example : ∃ h', detachNamed 2 desk 0 [77] = some (some 2, h') ∧ Ring h' 0 [1] := by
  rcases c121_detach [77] deskNames desk_ring desk_names (Nat.le_refl 2) with ⟨l, x, r, h', e0, e1, e2, e3, e4, -⟩ | ⟨h1, -⟩
  · have hx : objectItem 2 desk 0 [77] = some (some 2) := by decide +kernel
    have hd : detachNamed 2 desk 0 [77] = (detach desk 0 2).map fun h => (some 2, h) := by rw [detachNamed, hx]; rfl
    have he := e3
    rw [hd] at he
    cases hdd : detach desk 0 2 with
    | none => rw [hdd] at he; cases he
    | some hh =>
      rw [hdd] at he
      simp only [Option.map_some, Option.some.injEq, Prod.mk.injEq] at he
      obtain ⟨rfl, rfl⟩ := he
      refine ⟨hh, e3, ?_⟩
      have : l = [1] ∧ r = [] := by
        rcases l with _ | ⟨a, _ | ⟨b, l⟩⟩ <;> simp_all
      rw [this.1, this.2] at e4
      exact e4
  · have h2 : Config.same [77] (deskNames 2) = true := by decide +kernel
    rw [h1 2 (by simp)] at h2
    cases h2

example : (∃ l x r h' itn, [1, 2] = l ++ x :: r ∧ (∀ c ∈ l, Config.same [77] (deskNames c) = false) ∧ Config.same [77] (deskNames x) = true ∧
      replaceNamed (fun _ => true) 2 desk 0 7 5 = some (true, h') ∧ Ring h' 0 (l ++ 5 :: r) ∧ h'.cells 5 = some (.item itn) ∧ itn.str = some 8 ∧ h'.cells 8 = some (.bytes [77]) ∧
      itn.ty = .num 12 ∧ itn.vstr = none ∧ itn.child = none ∧ ∀ b ∈ [x, x + 2], h'.cells b = none) ∨
    ((∀ c ∈ [1, 2], Config.same [77] (deskNames c) = false) ∧ ∃ h', replaceNamed (fun _ => true) 2 desk 0 7 5 = some (false, h') ∧ Ring h' 0 [1, 2]) := by
  refine c121_replace_partial (it := ⟨.num 12, none, none, none, none, some 6⟩) deskNames (fun x => [x, x + 2]) desk_ring rfl (by decide) rfl (by decide) (by rintro o ⟨⟩; exact ⟨_, rfl⟩) desk_fresh rfl
    ?_ (Nat.le_refl 2) ?_
  · intro c hc
    simp only [List.mem_cons, List.not_mem_nil, or_false] at hc
    rcases hc with rfl | rfl
    · exact ⟨_, 3, rfl, rfl, by decide, rfl⟩
    · exact ⟨_, 4, rfl, rfl, by decide, rfl⟩
  · intro x hx
    simp only [List.mem_cons, List.not_mem_nil, or_false] at hx
    rcases hx with rfl | rfl
    · exact ⟨some [107], .num 10, some 2, .plain (Sn := [3]) (Sv := []) rfl ⟨3, rfl, rfl, rfl⟩ ⟨rfl, rfl, rfl⟩ rfl (.nil _), by decide, by decide, by decide⟩
    · exact ⟨some [109], .num 11, none, .plain (Sn := [4]) (Sv := []) rfl ⟨4, rfl, rfl, rfl⟩ ⟨rfl, rfl, rfl⟩ rfl (.nil _), by decide, by decide, by decide⟩
example : ∃ h', replaceNamed (fun _ => false) 2 desk 0 7 5 = some (false, h') ∧ h'.cells 5 = some (.item ⟨.num 12, none, none, none, none, none⟩) ∧ h'.cells 6 = none := by
  obtain ⟨h', e1, e2, e3, -⟩ := c121_replace_no_memory (ok := fun _ => false) (p := 0) (n := 2) (s := 7) (a := 5) (h := desk) (it := ⟨.num 12, none, none, none, none, some 6⟩) rfl rfl (by decide)
    (by rintro o ⟨⟩; exact ⟨_, rfl⟩) rfl
  exact ⟨h', e1, e2, e3 6 rfl⟩
example : replaceNamed (fun _ => true) 2 desk 0 6 5 = none := c121_replace_own_name_counterexample (it := ⟨.num 12, none, none, none, none, some 6⟩) (nm := [122]) rfl rfl rfl

end Verif.CJsonMem
