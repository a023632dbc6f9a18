import Verif.Spec.CJsonCreate
import Verif.Proofs.CJsonCreate
import Verif.Props.CJsonNamed
import Verif.Props.CJsonDup
/-
C123: creating values and adding them to an object. C124: changing a string.
-/
namespace Verif.CJsonMem
open Verif.CJson (J)

variable {V : Type} {h : H V} {ok : Nat → Bool}

theorem ItemRes.creates {j : J V} {o : Out V} (hr : ItemRes ok h (none, j) o) : Creates ok h (seen j) o := by
  rcases hr with ⟨h', e1, F, no⟩ | ⟨q, h', e1, it, T, Sn, Sv, P, pT, N, W⟩
  · refine .inl ⟨h', e1, F.cells, Classical.byContradiction fun hc => no fun k x y => ?_⟩
    cases hk : ok k with
    | true => rfl
    | false => exact (hc ⟨k, x, y, hk⟩).elim
  · have P := P.perm pT
    have := W.seg P.at_ N
    rw [P.next] at this
    exact .inr ⟨q, h', q :: (Sn ++ Sv), e1, ⟨this, P.nodup⟩, P.new, P.rest, P.all⟩

theorem Bare.val {ty : Ty V} {j : J V} (hb : Bare ty j) (h : H V) (it : Item V) (e1 : it.ty = ty) (e2 : it.vstr = none) (e3 : it.child = none) : Val h it (seen j) [] := by
  cases hb with
  | null => rw [seen]; exact ⟨⟨e1, e2, rfl⟩, e3⟩
  | bool b => rw [seen]; exact ⟨⟨e1, e2, rfl⟩, e3⟩
  | num v => rw [seen]; exact ⟨⟨e1, e2, rfl⟩, e3⟩
  | array => rw [seen_arr]; exact ⟨e1, e2, by rw [e3]; exact .nil none⟩
  | object => rw [seen_obj]; exact ⟨e1, e2, by rw [e3]; exact .nil none⟩

theorem Bare.seen {ty : Ty V} {j : J V} (hb : Bare ty j) : seen j = j := by
  cases hb <;> simp [CJsonMem.seen]

/-- C123. `cJSON_CreateNull`, `…True`, `…False`, `…Bool`, `…Number`, `…Array`, `…Object`. -/
theorem c123_item (hf : Fresh h) {ty : Ty V} {j : J V} (hb : Bare ty j) : Creates ok h j (createItem ok ty h) := by
  have := (createItem_ok (ok := ok) hf hb.val).creates
  rwa [hb.seen] at this

/-- C123. `cJSON_CreateString`: the string up to its first zero byte. -/
theorem c123_string (hf : Fresh h) {s : Nat} {bs : List UInt8} (hs : h.cells s = some (.bytes bs)) : Creates ok h (.str (bs.takeWhile (· ≠ 0))) (createString ok s h) := by
  have := (createString_ok (ok := ok) hf hs).creates
  rw [seen] at this
  exact this

/-- C123. `cJSON_CreateIntArray`, `cJSON_CreateFloatArray`, `cJSON_CreateDoubleArray`: all the numbers in their order. -/
theorem c123_numbers (hf : Fresh h) (vs : List V) : Creates ok h (.arr (vs.map .num)) (createNumbers ok vs h) := by
  have := (createArray_ok (ok := ok) (val := fun v => .num v) vs hf fun x _ h hf _ => createItem_ok hf (Bare.num x).val).creates
  rw [seen_arr, List.map_map] at this
  have e : (CJsonMem.seen ∘ fun v => (J.num v : J V)) = J.num := by
    funext v
    rw [Function.comp_apply, CJsonMem.seen]
  rwa [e] at this

/-- C123. `cJSON_CreateStringArray`: all the strings in their order, each up to its first zero byte. -/
theorem c123_strings (hf : Fresh h) (ss : List Nat) (bs : Nat → List UInt8) (hs : ∀ s ∈ ss, h.cells s = some (.bytes (bs s))) :
    Creates ok h (.arr (ss.map fun s => .str ((bs s).takeWhile (· ≠ 0)))) (createStrings ok ss h) := by
  have := (createArray_ok (ok := ok) (mk := createString ok) (val := fun s => .str (bs s)) ss hf fun x hx h1 hf1 he => createString_ok hf1
    (by rw [he x (lt_used hf (by simp [hs x hx]))]; exact hs x hx)).creates
  rw [seen_arr, List.map_map] at this
  have e : (CJsonMem.seen ∘ fun s => (J.str (bs s) : J V)) = fun s => .str ((bs s).takeWhile (· ≠ 0)) := by
    funext s
    rw [Function.comp_apply, CJsonMem.seen]
    rfl
  rwa [e] at this

/-- The list of elements of a created array is linked. -/
theorem createArray_ring {α : Type} {mk : α → H V → Out V} (hmk : ∀ x h c h', Fresh h → mk x h = some (some c, h') → Whole h h' c) (hf : Fresh h) (xs : List α) {q : Nat} {h' : H V}
    (e : createArray ok mk xs h = some (some q, h')) : ∃ cs, Ring h' q cs := by
  unfold createArray at e
  obtain ⟨⟨r, h1⟩, e1, e⟩ := Option.bind_eq_some_iff.mp e
  cases r with
  | none => cases e
  | some q' =>
    have g := createItem_whole hf e1
    obtain ⟨⟨okc, last, h2⟩, e2, e⟩ := Option.bind_eq_some_iff.mp e
    dsimp only at e
    split at e
    · next hc =>
      subst hc
      obtain ⟨cs, g2, -, el⟩ := Grown.creates hmk xs (cs := []) g e2
      obtain ⟨h3, e3, e⟩ := Option.map_eq_some_iff.mp e
      cases e
      rw [el] at e3
      have w := g2.close e3
      obtain ⟨it, eq, -⟩ := w.root
      obtain ⟨ds, R, -⟩ := w.rings q it w.new eq
      exact ⟨ds, R⟩
    · simp [drop] at e

/-- C123. The elements of a created array are linked in both directions, the first one back to the last, so that it can be edited (C120). -/
theorem c123_linked (hf : Fresh h) {q : Nat} {h' : H V} :
    (∀ vs : List V, createNumbers ok vs h = some (some q, h') → ∃ cs, Ring h' q cs) ∧ (∀ ss : List Nat, createStrings ok ss h = some (some q, h') → ∃ cs, Ring h' q cs) :=
  ⟨fun vs e => createArray_ring (fun _ _ _ _ hf e => (createItem_whole hf e).whole) hf vs e,
    fun ss e => createArray_ring (fun _ _ _ _ hf e => (createString_whole hf e).whole) hf ss e⟩

theorem addCreated_ok {mk : H V → Out V} {p s : Nat} {cs : List Nat} {nm : List UInt8} {j : J V} (hf : Fresh h) (hr : Ring h p cs) (hs : h.cells s = some (.bytes nm))
    (hm : ItemRes ok h (none, j) (mk h)) :
    (∃ h', addCreated ok mk h p s = some (none, h') ∧ h'.cells = h.cells ∧ ∃ k, h.used ≤ k ∧ k < h'.used ∧ ok k = false) ∨
    (∃ a h' T, addCreated ok mk h p s = some (some a, h') ∧ Ring h' p (cs ++ [a]) ∧ Seg h' (some a) [(some (nm.takeWhile (· ≠ 0)), seen j)] T none ∧ T.Nodup ∧ (∀ b ∈ T, h.used ≤ b) ∧
      ∀ b, b ∉ T → b ∉ p :: cs → h'.cells b = h.cells b) := by
  unfold addCreated
  have lt : ∀ b ∈ p :: cs, b < h.used := fun b hb => by obtain ⟨it, e⟩ := hr.live b hb; exact lt_of_cell hf e
  rcases hm with ⟨h1, e1, F, no⟩ | ⟨a, h1, e1, it, S, Sn, Sv, P, pS, N, W⟩
  · left
    refine ⟨h1, by rw [e1]; rfl, F.cells, Classical.byContradiction fun hc => no fun k x y => ?_⟩
    cases hk : ok k with
    | true => rfl
    | false => exact (hc ⟨k, x, y, hk⟩).elim
  · obtain ⟨n1, rfl⟩ : it.str = none ∧ Sn = [] := N
    rw [List.nil_append] at pS
    replace W : Val h1 it (seen j) Sv := W
    have P := P.perm pS
    rw [e1, Option.bind_some]
    dsimp only
    have hua : h.used ≤ a := P.new a (by simp)
    have hsl : s < h.used := lt_of_cell hf hs
    have hs1 : h1.cells s = some (.bytes nm) := by rw [P.old hsl]; exact hs
    have hap : a ∉ p :: cs := fun hc => by have := lt a hc; omega
    cases hok : ok h1.used with
    | true =>
      right
      have R1 : Ring h1 p cs := hr.congr fun b hb => P.old (lt b hb)
      obtain ⟨h2, it2, e2, R2, ea, en, eb, et, ev, ec, -, ek⟩ := c121_add R1 P.at_ P.next hap hs1 (by rw [n1]; intro o ho; cases ho) P.fresh hok
      have hSv : ∀ b ∈ Sv, h2.cells b = h1.cells b := fun b hb => by
        have hb1 := P.new b (by simp [hb])
        have hb2 := P.lt b (by simp [hb])
        refine ek b (fun hc => ?_) (by omega) (by rw [n1]; simp)
        rcases List.mem_cons.mp hc with rfl | hc
        · exact (List.nodup_cons.mp P.nodup).1 hb
        · have := lt b hc; omega
      have W2 : Val h2 it2 (seen j) Sv := W.congr hSv et ev ec
      have hnx : it2.next = none := by
        obtain ⟨-, -, run⟩ := R2
        rw [run_append] at run
        obtain ⟨-, ⟨it3, e3, -, n3⟩, -⟩ := run
        rw [ea] at e3; cases e3
        exact n3
      have sg := W2.seg ea (nm := some (nm.takeWhile (· ≠ 0))) (Sn := [h1.used]) ⟨h1.used, en, eb, rfl⟩
      rw [hnx] at sg
      refine ⟨a, h2, _, by rw [e2]; rfl, R2, sg, ?_, ?_, ?_⟩
      · rw [List.singleton_append]
        refine (List.Perm.swap _ _ _).nodup_iff.mp (List.nodup_cons.mpr ⟨fun hc => ?_, P.nodup⟩)
        have := P.lt _ hc; omega
      · intro b hb
        rw [List.singleton_append, List.mem_cons, List.mem_cons] at hb
        rcases hb with rfl | rfl | hb
        · exact hua
        · exact P.used
        · exact P.new b (by simp [hb])
      · intro b hb hb'
        rw [List.singleton_append, List.mem_cons, List.mem_cons, not_or, not_or] at hb
        rw [ek b (by rw [List.mem_cons, not_or]; exact ⟨hb.1, hb'⟩) hb.2.1 (by rw [n1]; simp)]
        exact P.rest b (by rw [List.mem_cons, not_or]; exact ⟨hb.1, hb.2.2⟩)
    | false =>
      left
      have hpa : p ≠ a := fun e => hap (by simp [e])
      rw [c121_add_no_memory hpa hs1 hok, Option.bind_some]
      have own : ∃ Svs Scs, Str h1 it.vstr Svs ∧ Own h1 it.child Scs ∧ Sv = Svs ++ Scs := by
        cases hj : seen j with
        | null => rw [hj] at W; obtain ⟨⟨-, w1, rfl⟩, w2⟩ := W; exact ⟨[], [], by rw [w1]; rfl, by rw [w2]; exact .nil, rfl⟩
        | bool b => rw [hj] at W; obtain ⟨⟨-, w1, rfl⟩, w2⟩ := W; exact ⟨[], [], by rw [w1]; rfl, by rw [w2]; exact .nil, rfl⟩
        | num v => rw [hj] at W; obtain ⟨⟨-, w1, rfl⟩, w2⟩ := W; exact ⟨[], [], by rw [w1]; rfl, by rw [w2]; exact .nil, rfl⟩
        | str t => rw [hj] at W; obtain ⟨⟨-, x, w1, w3, rfl⟩, w2⟩ := W; exact ⟨[x], [], by rw [w1]; exact ⟨rfl, by simp [w3]⟩, by rw [w2]; exact .nil, rfl⟩
        | arr xs => rw [hj] at W; obtain ⟨-, w1, w2⟩ := W; exact ⟨[], Sv, by rw [w1]; rfl, by simpa using w2.own .nil, rfl⟩
        | obj xs => rw [hj] at W; obtain ⟨-, w1, w2⟩ := W; exact ⟨[], Sv, by rw [w1]; rfl, by simpa using w2.own .nil, rfl⟩
      obtain ⟨Svs, Scs, o1, o2, rfl⟩ := own
      obtain ⟨h3, e3, F3, no3⟩ := P.drop (h' := { h1 with used := h1.used + 1 }) (Sn := []) hf (by rw [n1]; rfl) o1 o2 (by simp) rfl (Nat.le_succ _) (fun hc => by
        have := hc h1.used P.used (Nat.lt_succ_self _)
        rw [hok] at this; cases this)
      refine ⟨h3, by simpa using e3, F3.cells, Classical.byContradiction fun hc => no3 fun k x y => ?_⟩
      cases hk : ok k with
      | true => rfl
      | false => exact (hc ⟨k, x, y, hk⟩).elim

/-- C123. `cJSON_AddNullToObject` and the others without a string: the new value becomes the last member of the object, with a copy of the name. If an allocation fails, the value or its name, the memory
is as before. -/
theorem c123_add {ty : Ty V} {j : J V} {p s : Nat} {cs : List Nat} {nm : List UInt8} (hb : Bare ty j) (hf : Fresh h) (hr : Ring h p cs) (hs : h.cells s = some (.bytes nm)) :
    (∃ h', addCreated ok (createItem ok ty) h p s = some (none, h') ∧ h'.cells = h.cells ∧ ∃ k, h.used ≤ k ∧ k < h'.used ∧ ok k = false) ∨
    (∃ a h' T, addCreated ok (createItem ok ty) h p s = some (some a, h') ∧ Ring h' p (cs ++ [a]) ∧ Seg h' (some a) [(some (nm.takeWhile (· ≠ 0)), j)] T none ∧ T.Nodup ∧
      (∀ b ∈ T, h.used ≤ b) ∧ ∀ b, b ∉ T → b ∉ p :: cs → h'.cells b = h.cells b) := by
  have := addCreated_ok (mk := createItem ok ty) hf hr hs (createItem_ok (ok := ok) hf hb.val)
  rwa [hb.seen] at this

/-- C123. `cJSON_AddStringToObject`. -/
theorem c123_add_string {p s t : Nat} {cs : List Nat} {nm bs : List UInt8} (hf : Fresh h) (hr : Ring h p cs) (hs : h.cells s = some (.bytes nm)) (ht : h.cells t = some (.bytes bs)) :
    (∃ h', addCreated ok (createString ok t) h p s = some (none, h') ∧ h'.cells = h.cells ∧ ∃ k, h.used ≤ k ∧ k < h'.used ∧ ok k = false) ∨
    (∃ a h' T, addCreated ok (createString ok t) h p s = some (some a, h') ∧ Ring h' p (cs ++ [a]) ∧ Seg h' (some a) [(some (nm.takeWhile (· ≠ 0)), .str (bs.takeWhile (· ≠ 0)))] T none ∧
      T.Nodup ∧ (∀ b ∈ T, h.used ≤ b) ∧ ∀ b, b ∉ T → b ∉ p :: cs → h'.cells b = h.cells b) := by
  have := addCreated_ok (mk := createString ok t) hf hr hs (createString_ok (ok := ok) hf ht)
  rw [seen] at this
  exact this

/-! ### C124 -/

/-- C124. `cJSON_SetValuestring` with a string that is not the item's own: the value is then that string, in the old block if it fits there, otherwise in a new one and the old one is freed; nothing else has
changed. If there is no memory for a longer one, the answer is NULL and the item keeps its value. -/
theorem c124_set_partial {p s v : Nat} {it : Item V} {new old : List UInt8} (hp : h.cells p = some (.item it)) (ht : it.ty = .string) (hv : it.vstr = some v) (ho : h.cells v = some (.bytes old))
    (hs : h.cells s = some (.bytes new)) (hsv : s ≠ v) (hf : Fresh h) :
    (∃ h', setString ok h p s = some (none, h') ∧ h'.cells = h.cells ∧ ok h.used = false ∧ (old.takeWhile (· ≠ 0)).length < (new.takeWhile (· ≠ 0)).length) ∨
    (∃ w h', setString ok h p s = some (some w, h') ∧ h'.cells p = some (.item { it with vstr := some w }) ∧ h'.cells w = some (.bytes (new.takeWhile (· ≠ 0))) ∧
      (w = v ∧ (new.takeWhile (· ≠ 0)).length ≤ (old.takeWhile (· ≠ 0)).length ∨ w = h.used ∧ h'.cells v = none) ∧ ∀ b, b ≠ p → b ≠ v → b ≠ w → h'.cells b = h.cells b) := by
  have hpv : p ≠ v := fun e => by rw [e, ho] at hp; cases hp
  obtain ⟨ty, nx, pr, ch, vs, st⟩ := it
  cases ht
  cases hv
  rw [setString, item_eq hp, Option.bind_some]
  simp only [hs, ho]
  by_cases hl : (new.takeWhile (· ≠ 0)).length ≤ (old.takeWhile (· ≠ 0)).length
  · right
    rw [if_pos hl, if_neg hsv]
    refine ⟨v, _, rfl, ?_, by rw [set_cells, if_pos rfl], .inl ⟨rfl, hl⟩, fun b _ hb _ => by rw [set_cells, if_neg hb]⟩
    rw [set_cells, if_neg hpv, hp]
  · rw [if_neg hl]
    cases hok : ok h.used with
    | false =>
      left
      rw [strdup_no hs hok, Option.bind_some]
      exact ⟨_, rfl, rfl, rfl, by omega⟩
    | true =>
      right
      have hvu : v ≠ h.used := live_ne hf ho
      have hpu : p ≠ h.used := live_ne hf hp
      rw [strdup_ok hs hok, Option.bind_some]
      dsimp only
      rw [if_pos rfl, free, if_pos (by simp [hvu, ho]), Option.bind_some, upd_eq (it := ⟨.string, nx, pr, ch, some v, st⟩) (by simp [set_cells, hpv, hpu, hp])]
      refine ⟨h.used, _, rfl, by rw [set_cells, if_pos rfl], ?_, .inr ⟨rfl, ?_⟩, fun b h1 h2 h3 => ?_⟩
      · rw [set_cells, if_neg (Ne.symm hpu), set_cells, if_neg (Ne.symm hvu)]
        exact if_pos rfl
      · rw [set_cells, if_neg (Ne.symm hpv), set_cells, if_pos rfl]
      · rw [set_cells, if_neg h1, set_cells, if_neg h2]
        exact if_neg h3

/-- C124. What is no string is refused and stays as it is. -/
theorem c124_other {p s : Nat} {it : Item V} (hp : h.cells p = some (.item it)) (ht : it.ty ≠ .string) : setString ok h p s = some (none, h) := by
  rw [setString, item_eq hp, Option.bind_some]
  cases e : it.ty <;> first | rfl | exact (ht e).elim

/-- C124. The condition is needed: given the item's own string, `strcpy` copies a string to its own place, for which C says nothing. -/
theorem c124_own_counterexample {p v : Nat} {it : Item V} {old : List UInt8} (hp : h.cells p = some (.item it)) (ht : it.ty = .string) (hv : it.vstr = some v) (ho : h.cells v = some (.bytes old)) :
    setString ok h p v = none := by
  rw [setString, item_eq hp, Option.bind_some, ht]
  simp [hv, ho]

/-- C124. Nor without a string: the length of NULL is asked for, or of a string that is not there. -/
theorem c124_null_counterexample {p s : Nat} {it : Item V} (hp : h.cells p = some (.item it)) (ht : it.ty = .string) (hv : ∀ v, it.vstr = some v → h.cells v = none ∨ h.cells s = none) :
    setString ok h p s = none := by
  rw [setString, item_eq hp, Option.bind_some, ht]
  cases e : it.vstr with
  | none => rfl
  | some v =>
    dsimp only
    rcases hv v e with h1 | h1
    · rw [h1]
      split <;> simp_all
    · rw [h1]

/-! ### Examples -/

/-- The strings `ab` and `c`, an object with one member, and an item with the value `ab`. -/
def rack : H Int := ⟨7, fun a => match a with
  | 0 => some (.item ⟨.object, none, none, some 1, none, none⟩)
  | 1 => some (.item ⟨.null, none, some 1, none, none, some 2⟩)
  | 2 => some (.bytes [0x6b])
  | 3 => some (.bytes [0x61, 0x62])
  | 4 => some (.bytes [0x63])
  | 5 => some (.item ⟨.string, none, none, none, some 6, none⟩)
  | 6 => some (.bytes [0x61, 0x62])
  | _ => none⟩

theorem rack_fresh : Fresh rack := by
  intro a ha
  match a, ha with
  | n + 7, _ => rfl

theorem rack_ring : Ring rack 0 [1] := ⟨by decide, ⟨_, rfl, rfl⟩, ⟨_, rfl, rfl, rfl⟩, trivial⟩

example : Creates (fun _ => true) rack (.num 5) (createItem (fun _ => true) (.num 5) rack) := c123_item rack_fresh (.num 5)
example : Creates (fun i => i != 8) rack (.str [0x61, 0x62]) (createString (fun i => i != 8) 3 rack) := c123_string (bs := [0x61, 0x62]) rack_fresh rfl
example : (createString (fun i => i != 8) 3 rack).map (fun r => (r.1, (List.range 9).map fun a => (r.2.cells a).isSome)) = some (none, [true, true, true, true, true, true, true, false, false]) := by
  decide +kernel
example : Creates (fun _ => true) rack (.arr [.num 1, .num 2, .num 3]) (createNumbers (fun _ => true) [1, 2, 3] rack) := c123_numbers rack_fresh [1, 2, 3]
example : (createNumbers (fun _ => true) [1, 2, 3] rack).map (fun r => (r.1, (List.range 4).map fun a => r.2.cells (a + 7))) =
    some (some 7, [some (.item ⟨.array, none, none, some 8, none, none⟩), some (.item ⟨.num 1, some 9, some 10, none, none, none⟩), some (.item ⟨.num 2, some 10, some 8, none, none, none⟩),
      some (.item ⟨.num 3, none, some 9, none, none, none⟩)]) := by
  decide +kernel
example : Creates (fun _ => true) rack (.arr [.str [0x63], .str [0x61, 0x62]]) (createStrings (fun _ => true) [4, 3] rack) :=
  c123_strings rack_fresh [4, 3] (fun s => if s = 4 then [0x63] else [0x61, 0x62]) (by
    intro s hs
    simp only [List.mem_cons, List.not_mem_nil, or_false] at hs
    rcases hs with rfl | rfl <;> rfl)
example : ∃ q h' cs, createNumbers (fun _ => true) [1, 2, 3] rack = some (some q, h') ∧ Ring h' q cs := by
  rcases c123_numbers (ok := fun _ => true) rack_fresh [1, 2, 3] with ⟨h', -, -, k, -, -, hk⟩ | ⟨q, h', T, e, -⟩
  · cases hk
  · obtain ⟨cs, R⟩ := (c123_linked rack_fresh).1 [1, 2, 3] e
    exact ⟨q, h', cs, e, R⟩
example : ∃ a h', addCreated (fun _ => true) (createItem (fun _ => true) (.bool true)) rack 0 4 = some (some a, h') ∧ Ring h' 0 [1, a] ∧ ∃ T, Seg h' (some a) [(some [0x63], .bool true)] T none := by
  rcases c123_add (ok := fun _ => true) (.bool true) rack_fresh rack_ring (s := 4) (nm := [0x63]) rfl with ⟨h', e, -⟩ | ⟨a, h', T, e1, e2, e3, -⟩
  · have := congrArg (Option.map fun r => r.1) e
    rw [show Option.map (fun r : Option Nat × H Int => r.1) (some (none, h')) = some none from rfl] at this
    exact absurd this (by decide +kernel)
  · exact ⟨a, h', e1, e2, T, e3⟩
example : ∃ a h', addCreated (fun _ => true) (createString (fun _ => true) 3) rack 0 4 = some (some a, h') ∧ Ring h' 0 [1, a] ∧ ∃ T, Seg h' (some a) [(some [0x63], .str [0x61, 0x62])] T none := by
  rcases c123_add_string (ok := fun _ => true) rack_fresh rack_ring (s := 4) (nm := [0x63]) (t := 3) (bs := [0x61, 0x62]) rfl rfl with ⟨h', e, -⟩ | ⟨a, h', T, e1, e2, e3, -⟩
  · have := congrArg (Option.map fun r => r.1) e
    rw [show Option.map (fun r : Option Nat × H Int => r.1) (some (none, h')) = some none from rfl] at this
    exact absurd this (by decide +kernel)
  · exact ⟨a, h', e1, e2, T, e3⟩
/-- Without memory for the name the new value is given back. -/
example : (addCreated (fun i => i != 9) (createString (fun i => i != 9) 3) rack 0 4).map (fun r => (r.1, (List.range 10).map fun a => (r.2.cells a).isSome)) =
    some (none, [true, true, true, true, true, true, true, false, false, false]) := by
  decide +kernel
example : ∃ h', setString (fun _ => true) rack 5 4 = some (some 6, h') ∧ h'.cells 6 = some (.bytes [0x63]) := by
  rcases c124_set_partial (ok := fun _ => true) (h := rack) (p := 5) (s := 4) (v := 6) (it := ⟨.string, none, none, none, some 6, none⟩) (new := [0x63]) (old := [0x61, 0x62]) rfl rfl rfl rfl rfl (by decide)
    rack_fresh with ⟨h', -, -, hk, -⟩ | ⟨w, h', e, e1, e2, e3 | e3, -⟩
  · cases hk
  · obtain ⟨rfl, -⟩ := e3
    exact ⟨h', e, e2⟩
  · obtain ⟨rfl, -⟩ := e3
    have := congrArg (Option.map fun r => r.1) e
    rw [show Option.map (fun r : Option Nat × H Int => r.1) (some (some rack.used, h')) = some (some 7) from rfl] at this
    exact absurd this (by decide +kernel)
example : setString (fun _ => true) rack 0 4 = some (none, rack) := c124_other (it := ⟨.object, none, none, some 1, none, none⟩) rfl (by decide)
example : setString (fun _ => true) rack 5 6 = none := c124_own_counterexample (it := ⟨.string, none, none, none, some 6, none⟩) (old := [0x61, 0x62]) rfl rfl rfl rfl

/-- A string item whose string is gone. -/
example : setString (fun _ => true) (rack.set 6 none) 5 4 = none := c124_null_counterexample (it := ⟨.string, none, none, none, some 6, none⟩) rfl rfl fun v hv => by cases hv; exact .inl rfl

end Verif.CJsonMem
