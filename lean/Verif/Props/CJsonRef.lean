import Verif.Proofs.CJsonRef
import Verif.Props.CJsonEdit
import Verif.Props.CJsonNamed
import Verif.Props.CJsonDup
/-
C125: references and constant names.
-/
namespace Verif.CJsonMem

open Verif.CJson

variable {V : Type} {h : H V} {b : Bits} {ok : Nat → Bool}

/-- C125. `cJSON_Delete` gives back exactly the blocks that the document owns; what it only refers to, and names that are constants, stay as they are. -/
theorem c125_delete {p : Option Nat} {S : List Nat} {n : Nat} (ho : Owns b h p S) (hn : S.Nodup) (hl : S.length ≤ n) :
    ∃ h', deleteBits b n h p = some h' ∧ ∀ a, h'.cells a = if a ∈ S then none else h.cells a := delete_owns ho hn n hl

/-- C125. A reference shows the same value as the item, without its name; everything else is as before. -/
theorem c125_shows {x : Nat} {nm : Option (List UInt8)} {j : J V} {S : List Nat} {e : Option Nat} (hs : Seg h (some x) [(nm, j)] S e) (hf : Fresh h) (hok : ok h.used = true) :
    ∃ h' b' T, createRef ok b h x = some (some h.used, h', b') ∧ Seg h' (some h.used) [(none, j)] T none ∧ (∀ a, a ≠ h.used → h'.cells a = h.cells a) ∧
      b'.ref h.used = true ∧ T.length ≤ S.length ∧ h'.used = h.used + 1 := by
  have lt := hs.cells_lt hf
  cases hs with
  | plain a1 a2 a3 a4 a5 =>
    obtain ⟨h', b', e1, e2, e3, e4, e5, -⟩ := createRef_ok (b := b) a1 hf hok
    exact ⟨h', b', _, e1, .plain e3 ⟨rfl, rfl⟩ (a3.congr (fun a ha => e4 a (Nat.ne_of_lt (lt a (by simp [ha])))) rfl rfl) a4 (.nil _), e4, e5, by simp; omega, e2⟩
  | arr a1 a2 a3 a4 a5 a6 =>
    obtain ⟨h', b', e1, e2, e3, e4, e5, -⟩ := createRef_ok (b := b) a1 hf hok
    exact ⟨h', b', _, e1, .arr e3 ⟨rfl, rfl⟩ a3 a4 (a5.congr fun a ha => e4 a (Nat.ne_of_lt (lt a (by simp [ha])))) (.nil _), e4, e5, by simp; omega, e2⟩
  | obj a1 a2 a3 a4 a5 a6 =>
    obtain ⟨h', b', e1, e2, e3, e4, e5, -⟩ := createRef_ok (b := b) a1 hf hok
    exact ⟨h', b', _, e1, .obj e3 ⟨rfl, rfl⟩ a3 a4 (a5.congr fun a ha => e4 a (Nat.ne_of_lt (lt a (by simp [ha])))) (.nil _), e4, e5, by simp; omega, e2⟩

/-- C125. The copy of a reference is a document of its own with the same value; while it is made nothing else changes, and without memory nothing is left of it. -/
theorem c125_copy {x : Nat} {nm : Option (List UInt8)} {j : J V} {S : List Nat} {e : Option Nat} {n : Nat} (hs : Seg h (some x) [(nm, j)] S e) (hf : Fresh h) (hok : ok h.used = true) (hn : S.length ≤ n) :
    ∃ h' b', createRef ok b h x = some (some h.used, h', b') ∧
      ((∃ h'', duplicate ok true n h' h.used = some (none, h'') ∧ h''.cells = h'.cells ∧ ∃ k, h'.used ≤ k ∧ k < h''.used ∧ ok k = false) ∨
      (∃ q h'' T, duplicate ok true n h' h.used = some (some q, h'') ∧ Doc h'' q (seen j) T ∧ (∀ a ∈ T, h'.cells a = none) ∧ ∀ a, a ∉ T → h''.cells a = h'.cells a)) := by
  obtain ⟨h', b', T, e1, e2, e3, -, e4, e5⟩ := c125_shows (b := b) hs hf hok
  have hf' : Fresh h' := fun a ha => by
    rw [e5] at ha
    rw [e3 a (by omega)]
    exact hf a (by omega)
  refine ⟨h', b', e1, ?_⟩
  rcases c118_copy (ok := ok) h' hf' h.used none j T none e2 n (by omega) with hx | ⟨q, h'', T', a1, a2, a3, a4, a5, -⟩
  · exact .inl hx
  · exact .inr ⟨q, h'', T', a1, ⟨a2, a3⟩, a4, a5⟩

/-- C125. Creating a reference to an item and deleting the reference leaves the memory as it was. -/
theorem c125_back {x n : Nat} {it : Item V} (hx : h.cells x = some (.item it)) (hf : Fresh h) (hok : ok h.used = true) :
    ∃ h' b' h'', createRef ok b h x = some (some h.used, h', b') ∧ deleteBits b' (n + 1) h' (some h.used) = some h'' ∧ h''.cells = h.cells := by
  obtain ⟨h', b', e1, -, e3, e4, e5, -⟩ := createRef_ok (b := b) hx hf hok
  have ho : Owns b' h' (some h.used) [h.used] := by
    have := Owns.ref (b := b') e3 e5 (Sn := []) (S := []) (by dsimp only; split <;> rfl) .nil
    simpa using this
  obtain ⟨h'', e6, e7⟩ := delete_owns ho (by simp) (n + 1) (by simp)
  refine ⟨h', b', h'', e1, e6, funext fun a => ?_⟩
  rw [e7 a]
  by_cases ha : a = h.used
  · rw [if_pos (by simp [ha]), ha, hf _ (Nat.le_refl _)]
  · rw [if_neg (by simp [ha]), e4 a ha]

/-- C125. `cJSON_AddItemReferenceToArray`: a reference to the item becomes the last one of the list. -/
theorem c125_add {p x : Nat} {cs : List Nat} {it : Item V} (hr : Ring h p cs) (hx : h.cells x = some (.item it)) (hf : Fresh h) (hok : ok h.used = true) :
    ∃ h' b' itq, addRef ok b h p x = some (true, h', b') ∧ Ring h' p (cs ++ [h.used]) ∧ h'.cells h.used = some (.item itq) ∧ itq.ty = it.ty ∧ itq.child = it.child ∧ itq.vstr = it.vstr ∧
      itq.str = none ∧ b'.ref h.used = true ∧ (∀ a, a ≠ h.used → b'.ref a = b.ref a ∧ b'.const a = b.const a) ∧ ∀ a, a ∉ h.used :: p :: cs → h'.cells a = h.cells a := by
  have hu : ∀ a ∈ p :: cs, a ≠ h.used := fun a ha e => by
    obtain ⟨i, hi⟩ := hr.live a ha
    rw [e, hf _ (Nat.le_refl _)] at hi
    cases hi
  obtain ⟨h1, b1, e1, -, e3, e4, e5, e6⟩ := createRef_ok (b := b) hx hf hok
  have hr1 : Ring h1 p cs := by
    obtain ⟨nd, ⟨par, ep, hc⟩, run⟩ := hr
    exact ⟨nd, ⟨par, by rw [e4 p (hu p (by simp))]; exact ep, hc⟩, run.congr fun a ha => e4 a (hu a (by simp [ha]))⟩
  have hq : h.used ∉ p :: cs := fun e => hu _ e rfl
  obtain ⟨h', e7, e8, e9⟩ := addItem_ring hr1 e3 rfl hq
  obtain ⟨n, r, c, e10, e11⟩ := e9.2.2 _ _ e3
  refine ⟨h', b1, _, by rw [addRef, e1, Option.bind_some]; dsimp only; rw [e7]; rfl, e8, e10, rfl, e11 (fun e => hq (by simp [e])), rfl, rfl, e5, e6, fun a ha => ?_⟩
  simp only [List.mem_cons, not_or] at ha
  rw [e9.2.1 a ha.2.1 (by simp [ha]), e4 a ha.1]

/-- C125. Without memory for the reference nothing has changed. -/
theorem c125_add_no_memory {p x : Nat} (hok : ok h.used = false) : ∃ h', addRef ok b h p x = some (false, h', b) ∧ h'.cells = h.cells := by
  refine ⟨{ h with used := h.used + 1 }, by rw [addRef, createRef, newItem_fail (by simp [hok])]; rfl, rfl⟩

/-- C125. The same for objects. -/
theorem c125_add_named_no_memory {p s x : Nat} (hok : ok h.used = false) : ∃ h', addRefNamed ok b h p s x = some (false, h', b) ∧ h'.cells = h.cells := by
  refine ⟨{ h with used := h.used + 1 }, by rw [addRefNamed, createRef, newItem_fail (by simp [hok])]; rfl, rfl⟩

/-- C125. Deleting an array to which a reference was added gives back what the array owned before and the reference; the item that was referred to, unless it was in the array, stays with all that is in it. -/
theorem c125_add_delete {p x n : Nat} {cs S : List Nat} {par it : Item V} (hr : Ring h p cs) (hp : h.cells p = some (.item par)) (hpn : par.next = none) (hpr : b.ref p = false) (ho : Owns b h (some p) S)
    (hn : S.Nodup) (hx : h.cells x = some (.item it)) (hf : Fresh h) (hok : ok h.used = true) (hl : S.length + 1 ≤ n) :
    ∃ h' b' h'', addRef ok b h p x = some (true, h', b') ∧ deleteBits b' n h' (some p) = some h'' ∧ ∀ a, h''.cells a = if a ∈ S then none else h.cells a := by
  have hS : ∀ a ∈ S, a ≠ h.used := fun a ha e => by
    have := ho.some_of_mem a ha
    rw [e, hf _ (Nat.le_refl _)] at this
    cases this
  have hu : ∀ a ∈ p :: cs, a ≠ h.used := fun a ha e => by
    obtain ⟨i, hi⟩ := hr.live a ha
    rw [e, hf _ (Nat.le_refl _)] at hi
    cases hi
  obtain ⟨h1, b1, e1, -, e3, e4, e5, e6⟩ := createRef_ok (b := b) hx hf hok
  have hr1 : Ring h1 p cs := by
    obtain ⟨nd, ⟨par, ep, hc⟩, run⟩ := hr
    exact ⟨nd, ⟨par, by rw [e4 p (hu p (by simp))]; exact ep, hc⟩, run.congr fun a ha => e4 a (hu a (by simp [ha]))⟩
  have hq : h.used ∉ p :: cs := fun e => hu _ e rfl
  have hp1 : h1.cells p = some (.item par) := by rw [e4 p (hu p (by simp))]; exact hp
  obtain ⟨h', e7, e8, e9⟩ := addItem_ring hr1 e3 rfl hq
  obtain ⟨c, e10⟩ := addItem_par hr1 hq hp1 e7
  obtain ⟨n1, r1, c1, e11, -⟩ := e9.2.2 _ _ e3
  cases ho with
  | ref a1 a2 => rw [hpr] at a2; cases a2
  | @item _ it0 Sn Sv Sc S' a1 a2 a3 a4 a5 a6 =>
    rw [hp] at a1
    cases a1
    rw [hpn] at a6
    cases a6
    have hcs : par.child = headOr cs none := by
      obtain ⟨-, ⟨par', ep, hc⟩, -⟩ := hr
      rw [hp] at ep
      cases ep
      rw [hc]
      cases cs <;> rfl
    have hc' : c = headOr cs (some h.used) := by
      obtain ⟨-, ⟨par', ep, hc⟩, -⟩ := e8
      rw [e10] at ep
      cases ep
      dsimp only at hc
      rw [hc]
      cases cs <;> rfl
    rw [hcs] at a5
    have top := owns_run hr.2.2 a5
    have nd1 : p ∉ Sn ++ Sv ++ Sc ∧ (Sn ++ Sv ++ Sc).Nodup := by simpa using hn
    have nd2 := List.nodup_append.mp nd1.2
    have keep : ∀ a ∈ Sn ++ Sv ++ Sc, a ∉ cs → h'.cells a = h.cells a := fun a ha hac => by
      have hau := hS a (by simpa using .inr (by simpa using ha))
      rw [e9.2.1 a (fun e => nd1.1 (e ▸ ha)) (by simp [hau, hac]), e4 a hau]
    have keep' : ∀ a ∈ Sn ++ Sv, h'.cells a = h.cells a := fun a ha => keep a (by simp only [List.mem_append] at ha ⊢; exact .inl ha) fun hac => nd2.2.2 a ha a (top a hac) rfl
    have kids := owns_append (b := b) (b' := b1) e11 rfl e5 hr.2.2 a5 nd2.2.1 e8.2.2
      (fun a ha i hi => by
        have hap : a ≠ p := fun e => (List.nodup_cons.mp hr.1).1 (e ▸ ha)
        obtain ⟨n2, r2, c2, e12, e13⟩ := e9.2.2 a i (by rw [e4 a (hu a (by simp [ha]))]; exact hi)
        rw [e13 hap] at e12
        exact ⟨n2, r2, e12⟩)
      (fun a ha hac => keep a (by simp [ha]) hac) (fun a ha => e6 a (hS a (by simp [ha])))
    have own : Owns b1 h' (some p) (p :: (Sn ++ Sv ++ (Sc ++ [h.used]) ++ [])) := by
      refine .item e10 (by rw [(e6 p (hu p (by simp))).1]; exact hpr) ?_ (a4.congr fun a ha => keep' a (by simp [ha])) (by dsimp only; rw [hc']; exact kids) (by dsimp only; rw [hpn]; exact .nil)
      rw [(e6 p (hu p (by simp))).2]
      exact a3.congr fun a ha => keep' a (by simp [ha])
    have nd' : (p :: (Sn ++ Sv ++ (Sc ++ [h.used]) ++ [])).Nodup := by
      have : (p :: (Sn ++ Sv ++ (Sc ++ [h.used]) ++ [])) = (p :: (Sn ++ Sv ++ Sc ++ [])) ++ [h.used] := by simp
      rw [this, List.nodup_append]
      refine ⟨hn, by simp, fun a ha c hc => ?_⟩
      simp only [List.mem_singleton] at hc
      rw [hc]
      exact hS a ha
    obtain ⟨h'', e14, e15⟩ := delete_owns own nd' n (by simp at hl ⊢; omega)
    refine ⟨h', b1, h'', by rw [addRef, e1, Option.bind_some]; dsimp only; rw [e7]; rfl, e14, fun a => ?_⟩
    rw [e15 a]
    by_cases ha : a ∈ p :: (Sn ++ Sv ++ Sc ++ [])
    · rw [if_pos ha, if_pos (by simp at ha ⊢; tauto)]
    · rw [if_neg ha]
      by_cases hau : a = h.used
      · rw [if_pos (by simp [hau]), hau, hf _ (Nat.le_refl _)]
      · rw [if_neg (by simp at ha ⊢; tauto)]
        have hac : a ∉ p :: cs := fun hc => by
          rcases List.mem_cons.mp hc with rfl | hc
          · exact ha (by simp)
          · exact ha (by simp [top a hc])
        simp only [List.mem_cons, not_or] at hac
        rw [e9.2.1 a hac.1 (by simp [hau, hac.2]), e4 a hau]

/-- C125. `cJSON_AddItemReferenceToObject`: a reference to the item becomes the last member; its name is a copy that the object owns. -/
theorem c125_add_named_partial {p s x : Nat} {cs : List Nat} {it : Item V} {nm : List UInt8} (hr : Ring h p cs) (hx : h.cells x = some (.item it)) (hs : h.cells s = some (.bytes nm)) (hf : Fresh h)
    (hok : ok h.used = true) (hok' : ok (h.used + 1) = true) :
    ∃ h' b' itq, addRefNamed ok b h p s x = some (true, h', b') ∧ Ring h' p (cs ++ [h.used]) ∧ h'.cells h.used = some (.item itq) ∧ itq.ty = it.ty ∧ itq.child = it.child ∧ itq.vstr = it.vstr ∧
      itq.str = some (h.used + 1) ∧ h'.cells (h.used + 1) = some (.bytes (nm.takeWhile (· ≠ 0))) ∧ b'.ref h.used = true ∧ b'.const h.used = false ∧
      (∀ a, a ≠ h.used → b'.ref a = b.ref a ∧ b'.const a = b.const a) ∧ ∀ a, a < h.used → a ∉ p :: cs → h'.cells a = h.cells a := by
  have hu : ∀ a ∈ p :: cs, a ≠ h.used := fun a ha e => by
    obtain ⟨i, hi⟩ := hr.live a ha
    rw [e, hf _ (Nat.le_refl _)] at hi
    cases hi
  have hsu : s ≠ h.used := fun e => by rw [e, hf _ (Nat.le_refl _)] at hs; cases hs
  obtain ⟨h1, b1, e1, e2, e3, e4, e5, e6⟩ := createRef_ok (b := b) hx hf hok
  have hr1 : Ring h1 p cs := by
    obtain ⟨nd, ⟨par, ep, hc⟩, run⟩ := hr
    exact ⟨nd, ⟨par, by rw [e4 p (hu p (by simp))]; exact ep, hc⟩, run.congr fun a ha => e4 a (hu a (by simp [ha]))⟩
  have hq : h.used ∉ p :: cs := fun e => hu _ e rfl
  have hf1 : Fresh h1 := fun a ha => by
    rw [e2] at ha
    rw [e4 a (by omega)]
    exact hf a (by omega)
  obtain ⟨h', it', e7, e8, e9, e10, e11, e12, e13, e14, -, e15⟩ := c121_add (ok := ok) (nm := nm) hr1 e3 rfl hq (by rw [e4 s hsu]; exact hs) (fun o ho => by cases ho) hf1 (by rw [e2]; exact hok')
  rw [e2] at e10 e11 e15
  refine ⟨h', { b1 with const := fun a => if a = h.used then false else b1.const a }, it', by rw [addRefNamed, e1, Option.bind_some]; dsimp only; rw [e7]; rfl, e8, e9, e12, e14, e13, e10, e11, e5, if_pos rfl, fun a ha => ⟨(e6 a ha).1, ?_⟩, fun a ha hac => ?_⟩
  · show (if a = h.used then false else b1.const a) = _
    rw [if_neg ha]
    exact (e6 a ha).2
  · simp only [List.mem_cons, not_or] at hac
    rw [e15 a (by simp [Nat.ne_of_lt ha, hac]) (by omega) (by simp), e4 a (Nat.ne_of_lt ha)]

/-- C125. False for `cJSON_AddItemReferenceToObject` when there is memory for the reference but not for its name: the answer is that it failed, but the reference stays allocated and nothing
points to it. -/
theorem c125_leak_counterexample {p s x : Nat} {it : Item V} {nm : List UInt8} (hx : h.cells x = some (.item it)) (hs : h.cells s = some (.bytes nm)) (hp : p < h.used) (hf : Fresh h)
    (hok : ok h.used = true) (hok' : ok (h.used + 1) = false) :
    ∃ h' b', addRefNamed ok b h p s x = some (false, h', b') ∧ h.cells h.used = none ∧ (h'.cells h.used).isSome = true ∧ ∀ a, a ≠ h.used → h'.cells a = h.cells a := by
  have hsu : s ≠ h.used := fun e => by rw [e, hf _ (Nat.le_refl _)] at hs; cases hs
  obtain ⟨h1, b1, e1, e2, e3, e4, -, -⟩ := createRef_ok (b := b) hx hf hok
  refine ⟨{ h1 with used := h1.used + 1 }, b1, by rw [addRefNamed, e1, Option.bind_some]; dsimp only; rw [c121_add_no_memory (nm := nm) (Nat.ne_of_lt hp) (by rw [e4 s hsu]; exact hs) (by rw [e2]; exact hok')]; rfl,
    hf _ (Nat.le_refl _), by dsimp only; rw [e3]; rfl, fun a ha => e4 a ha⟩

/-- C125. `cJSON_AddItemToObjectCS`: the item becomes the last member under the caller's string itself; a name of its own that it had is given back, a constant one stays. -/
theorem c125_const {p s a : Nat} {cs : List Nat} {it : Item V} (hr : Ring h p cs) (ha : h.cells a = some (.item it)) (hn : it.next = none) (hp : a ∉ p :: cs)
    (ho : b.const a = false → ∀ o, it.str = some o → ∃ bs, h.cells o = some (.bytes bs)) :
    ∃ h' b' it', addConst b h p s a = some (true, h', b') ∧ Ring h' p (cs ++ [a]) ∧ h'.cells a = some (.item it') ∧ it'.str = some s ∧ it'.ty = it.ty ∧ it'.vstr = it.vstr ∧ it'.child = it.child ∧
      b'.const a = true ∧ b'.ref = b.ref ∧ (∀ c, c ≠ a → b'.const c = b.const c) ∧ (∀ o, b.const a = false → it.str = some o → h'.cells o = none) ∧
      ∀ c, c ∉ a :: p :: cs → (b.const a = true ∨ it.str ≠ some c) → h'.cells c = h.cells c := by
  have hpa : p ≠ a := fun e => hp (by simp [e])
  have key : ∃ h1, (if b.const a then some h else freeOpt h it.str) = some h1 ∧ (∀ c, (b.const a = true ∨ it.str ≠ some c) → h1.cells c = h.cells c) ∧
      (∀ o, b.const a = false → it.str = some o → h1.cells o = none) := by
    cases hb : b.const a with
    | true => exact ⟨h, rfl, fun _ _ => rfl, fun _ e => by cases e⟩
    | false =>
      cases hst : it.str with
      | none => exact ⟨h, rfl, fun _ _ => rfl, fun _ _ e => by cases e⟩
      | some o =>
        obtain ⟨bs, e⟩ := ho hb o hst
        refine ⟨h.set o none, by simp [freeOpt, free, e], fun c hc => ?_, fun o' _ e => ?_⟩
        · rcases hc with hc | hc
          · cases hc
          · rw [set_cells, if_neg fun e => hc (by rw [e])]
        · cases e
          exact set_self _ _ _
  obtain ⟨h1, k1, k2, k3⟩ := key
  have live : ∀ c i, h.cells c = some (.item i) → h1.cells c = some (.item i) := fun c i hc => by
    rw [k2 c ?_]
    · exact hc
    · cases hb : b.const a with
      | true => exact .inl rfl
      | false =>
        refine .inr fun e => ?_
        obtain ⟨bs, e'⟩ := ho hb c e
        rw [hc] at e'
        cases e'
  have hr2 : Ring (h1.set a (some (.item { it with str := some s }))) p cs := by
    obtain ⟨nd, ⟨par, ep, hc⟩, run⟩ := hr
    refine ⟨nd, ⟨par, by rw [set_cells, if_neg hpa]; exact live _ _ ep, hc⟩, run.links fun c hc i hi => ⟨i, ?_, rfl, rfl⟩⟩
    rw [set_cells, if_neg fun e => hp (by simp [← e, hc])]
    exact live _ _ hi
  obtain ⟨h', e1, e2, e3⟩ := addItem_ring hr2 (set_self h1 a _) hn hp
  obtain ⟨n, r, c, e4, e5⟩ := e3.2.2 a _ (set_self h1 a _)
  refine ⟨h', { b with const := fun x => if x = a then true else b.const x }, _, by rw [addConst, if_neg hpa, item_eq ha, Option.bind_some, k1, Option.bind_some, upd_eq (live _ _ ha), Option.bind_some, e1]; rfl, e2, e4, rfl, rfl, rfl, e5 hpa.symm, if_pos rfl, rfl,
    fun c hc => if_neg hc, fun o hb hst => ?_, fun c hc hcs => ?_⟩
  · obtain ⟨bs, e⟩ := ho hb o hst
    have hno : ∀ c ∈ a :: p :: cs, o ≠ c := fun c hc e' => by
      have : ∃ i, h.cells c = some (.item i) := by
        rcases List.mem_cons.mp hc with rfl | hc
        · exact ⟨_, ha⟩
        · exact hr.live c hc
      obtain ⟨i, hi⟩ := this
      rw [← e', e] at hi
      cases hi
    rw [e3.2.1 o (hno p (by simp)) (fun hm => by
      rcases List.mem_cons.mp hm with rfl | hm
      · exact hno o (by simp) rfl
      · exact hno o (by simp [hm]) rfl), set_cells, if_neg (hno a (by simp))]
    exact k3 o hb hst
  · simp only [List.mem_cons, not_or] at hc
    rw [e3.2.1 c hc.2.1 (by simp [hc]), set_cells, if_neg hc.1]
    exact k2 c hcs

/-- C125. `cJSON_AddItemToObjectCS` refuses to make an item its own member. -/
theorem c125_const_self (p s : Nat) : addConst b h p s p = some (false, h, b) := by rw [addConst, if_pos rfl]

/-- A new item that is a reference, once deleted, leaves the memory as it was. -/
theorem loan_back {h' : H V} {b' : Bits} {it : Item V} {n : Nat} (hf : Fresh h) (e3 : h'.cells h.used = some (.item it)) (e4 : ∀ a, a ≠ h.used → h'.cells a = h.cells a) (e5 : b'.ref h.used = true)
    (hs : it.str = none) (hn : it.next = none) : ∃ h'', deleteBits b' (n + 1) h' (some h.used) = some h'' ∧ h''.cells = h.cells := by
  have ho : Owns b' h' (some h.used) [h.used] := by
    have := Owns.ref (b := b') e3 e5 (Sn := []) (S := []) (by rw [hs]; split <;> rfl) (by rw [hn]; exact .nil)
    simpa using this
  obtain ⟨h'', e6, e7⟩ := delete_owns ho (by simp) (n + 1) (by simp)
  refine ⟨h'', e6, funext fun a => ?_⟩
  rw [e7 a]
  by_cases ha : a = h.used
  · rw [if_pos (by simp [ha]), ha, hf _ (Nat.le_refl _)]
  · rw [if_neg (by simp [ha]), e4 a ha]

/-- C125. `cJSON_CreateStringReference`: an item with the caller's string itself as its value; deleting the item leaves the string. -/
theorem c125_string {s n : Nat} {bs : List UInt8} (hs : h.cells s = some (.bytes bs)) (hf : Fresh h) :
    (ok h.used = false ∧ ∃ h', createStringRef ok b h s = some (none, h', b) ∧ h'.cells = h.cells) ∨
    (∃ h' b' T h'', createStringRef ok b h s = some (some h.used, h', b') ∧ Seg h' (some h.used) [(none, .str bs)] T none ∧ s ∈ T ∧ (∀ a, a ≠ h.used → h'.cells a = h.cells a) ∧
      deleteBits b' (n + 1) h' (some h.used) = some h'' ∧ h''.cells = h.cells) := by
  have hsu : s ≠ h.used := fun e => by rw [e, hf _ (Nat.le_refl _)] at hs; cases hs
  by_cases hok : ok h.used = true
  · right
    have e1 : createStringRef ok b h s = some (some h.used, { used := h.used + 1, cells := fun a => if a = h.used then some (.item ⟨.string, none, none, none, some s, none⟩) else h.cells a },
        { b with ref := fun a => if a = h.used then true else b.ref a }) := by
      rw [createStringRef, newItem_ok hok]
      dsimp only
      rw [upd_eq (it := ⟨.invalid, none, none, none, none, none⟩) (by simp), Option.map_some]
      congr 3
      unfold H.set
      congr 1
      funext a
      by_cases ha : a = h.used <;> simp [ha]
    have e4 : ∀ a, a ≠ h.used → (if a = h.used then some (.item ⟨.string, none, none, none, some s, none⟩) else h.cells a) = h.cells a := fun a ha => if_neg ha
    obtain ⟨h'', e6, e7⟩ := loan_back (n := n) (h' := { used := h.used + 1, cells := fun a => if a = h.used then some (.item ⟨.string, none, none, none, some s, none⟩) else h.cells a })
      (b' := { b with ref := fun a => if a = h.used then true else b.ref a }) hf (if_pos rfl) e4 (if_pos rfl) rfl rfl
    exact ⟨_, _, _, h'', e1, .plain (Sn := []) (Sv := [s]) (S := []) (if_pos rfl) ⟨rfl, rfl⟩ ⟨rfl, s, rfl, by rw [← hs]; exact if_neg hsu, rfl⟩ rfl (.nil _), by simp, e4, e6, e7⟩
  · left
    exact ⟨by simpa using hok, { h with used := h.used + 1 }, by rw [createStringRef, newItem_fail hok], rfl⟩

/-- C125. `cJSON_CreateArrayReference`: an array with the caller's list itself as its elements; deleting the array leaves the list. -/
theorem c125_array {c : Option Nat} {xs : List (J V)} {S : List Nat} {n : Nat} (hs : Seg h c (xs.map fun x => (none, x)) S none) (hf : Fresh h) :
    (ok h.used = false ∧ ∃ h', createListRef ok b h false c = some (none, h', b) ∧ h'.cells = h.cells) ∨
    (∃ h' b' h'', createListRef ok b h false c = some (some h.used, h', b') ∧ Seg h' (some h.used) [(none, .arr xs)] (h.used :: S) none ∧ (∀ a, a ≠ h.used → h'.cells a = h.cells a) ∧
      deleteBits b' (n + 1) h' (some h.used) = some h'' ∧ h''.cells = h.cells) := by
  by_cases hok : ok h.used = true
  · right
    have e1 : createListRef ok b h false c = some (some h.used, { used := h.used + 1, cells := fun a => if a = h.used then some (.item ⟨.array, none, none, c, none, none⟩) else h.cells a },
        { b with ref := fun a => if a = h.used then true else b.ref a }) := by
      rw [createListRef, newItem_ok hok]
      dsimp only
      rw [upd_eq (it := ⟨.invalid, none, none, none, none, none⟩) (by simp), Option.map_some]
      congr 3
      unfold H.set
      congr 1
      funext a
      by_cases ha : a = h.used <;> simp [ha]
    have e4 : ∀ a, a ≠ h.used → (if a = h.used then some (.item ⟨.array, none, none, c, none, none⟩) else h.cells a) = h.cells a := fun a ha => if_neg ha
    obtain ⟨h'', e6, e7⟩ := loan_back (n := n) (h' := { used := h.used + 1, cells := fun a => if a = h.used then some (.item ⟨.array, none, none, c, none, none⟩) else h.cells a })
      (b' := { b with ref := fun a => if a = h.used then true else b.ref a }) hf (if_pos rfl) e4 (if_pos rfl) rfl rfl
    have := Seg.arr (h := { used := h.used + 1, cells := fun a => if a = h.used then some (.item ⟨.array, none, none, c, none, none⟩) else h.cells a }) (p := h.used) (Sn := []) (Sc := S) (S := [])
      (if_pos rfl) (nm := none) ⟨rfl, rfl⟩ rfl rfl (hs.congr fun a ha => e4 a (Nat.ne_of_lt (hs.cells_lt hf a ha))) (.nil _)
    exact ⟨_, _, h'', e1, by simpa using this, e4, e6, e7⟩
  · left
    exact ⟨by simpa using hok, { h with used := h.used + 1 }, by rw [createListRef, newItem_fail hok], rfl⟩

/-- C125. `cJSON_CreateObjectReference`: an object with the caller's list itself as its members; deleting the object leaves the list. -/
theorem c125_object {c : Option Nat} {xs : List (List UInt8 × J V)} {S : List Nat} {n : Nat} (hs : Seg h c (xs.map fun x => (some x.1, x.2)) S none) (hf : Fresh h) :
    (ok h.used = false ∧ ∃ h', createListRef ok b h true c = some (none, h', b) ∧ h'.cells = h.cells) ∨
    (∃ h' b' h'', createListRef ok b h true c = some (some h.used, h', b') ∧ Seg h' (some h.used) [(none, .obj xs)] (h.used :: S) none ∧ (∀ a, a ≠ h.used → h'.cells a = h.cells a) ∧
      deleteBits b' (n + 1) h' (some h.used) = some h'' ∧ h''.cells = h.cells) := by
  by_cases hok : ok h.used = true
  · right
    have e1 : createListRef ok b h true c = some (some h.used, { used := h.used + 1, cells := fun a => if a = h.used then some (.item ⟨.object, none, none, c, none, none⟩) else h.cells a },
        { b with ref := fun a => if a = h.used then true else b.ref a }) := by
      rw [createListRef, newItem_ok hok]
      dsimp only
      rw [upd_eq (it := ⟨.invalid, none, none, none, none, none⟩) (by simp), Option.map_some]
      congr 3
      unfold H.set
      congr 1
      funext a
      by_cases ha : a = h.used <;> simp [ha]
    have e4 : ∀ a, a ≠ h.used → (if a = h.used then some (.item ⟨.object, none, none, c, none, none⟩) else h.cells a) = h.cells a := fun a ha => if_neg ha
    obtain ⟨h'', e6, e7⟩ := loan_back (n := n) (h' := { used := h.used + 1, cells := fun a => if a = h.used then some (.item ⟨.object, none, none, c, none, none⟩) else h.cells a })
      (b' := { b with ref := fun a => if a = h.used then true else b.ref a }) hf (if_pos rfl) e4 (if_pos rfl) rfl rfl
    have := Seg.obj (h := { used := h.used + 1, cells := fun a => if a = h.used then some (.item ⟨.object, none, none, c, none, none⟩) else h.cells a }) (p := h.used) (Sn := []) (Sc := S) (S := [])
      (if_pos rfl) (nm := none) ⟨rfl, rfl⟩ rfl rfl (hs.congr fun a ha => e4 a (Nat.ne_of_lt (hs.cells_lt hf a ha))) (.nil _)
    exact ⟨_, _, h'', e1, by simpa using this, e4, e6, e7⟩
  · left
    exact ⟨by simpa using hok, { h with used := h.used + 1 }, by rw [createListRef, newItem_fail hok], rfl⟩

/-- C125. The string of a reference cannot be set, since it belongs to somebody else; any other item's can, as C124 says. -/
theorem c125_set {p s : Nat} : (b.ref p = true → setStringBits ok b h p s = some (none, h)) ∧ (b.ref p = false → setStringBits ok b h p s = setString ok h p s) :=
  ⟨fun e => by rw [setStringBits, if_pos e], fun e => by rw [setStringBits, if_neg (by simp [e])]⟩

/-! ### Examples -/

/-- An array with one number at 0, an object with the member `k` at 2 whose value is the string at 5, and the string `m` at 6. -/
def lent : H Int := ⟨7, fun a => match a with
  | 0 => some (.item ⟨.array, none, none, some 1, none, none⟩)
  | 1 => some (.item ⟨.num 4, none, some 1, none, none, none⟩)
  | 2 => some (.item ⟨.object, none, none, some 3, none, none⟩)
  | 3 => some (.item ⟨.string, none, some 3, none, some 5, some 4⟩)
  | 4 => some (.bytes [0x6b])
  | 5 => some (.bytes [0x61])
  | 6 => some (.bytes [0x6d])
  | _ => none⟩

/-- No item is a reference or has a constant name. -/
def clear : Bits := ⟨fun _ => false, fun _ => false⟩

theorem lent_fresh : Fresh lent := by
  intro a ha
  match a, ha with
  | n + 7, _ => rfl

theorem lent_ring : Ring lent 0 [1] := ⟨by decide, ⟨_, rfl, rfl⟩, ⟨_, rfl, rfl, rfl⟩, trivial⟩
theorem lent_obj : Ring lent 2 [3] := ⟨by decide, ⟨_, rfl, rfl⟩, ⟨_, rfl, rfl, rfl⟩, trivial⟩
theorem lent_owns : Owns clear lent (some 0) [0, 1] :=
  .item (Sn := []) (Sv := []) (Sc := [1]) (S := []) rfl rfl rfl rfl (.item (Sn := []) (Sv := []) (Sc := []) (S := []) rfl rfl rfl rfl .nil .nil) .nil

/-- A reference to the object is put into the array and the array is deleted: the object is still there. -/
example : ∃ h' b' h'', addRef (fun _ => true) clear lent 0 2 = some (true, h', b') ∧ deleteBits b' 3 h' (some 0) = some h'' ∧ ∀ a, h''.cells a = if a ∈ [0, 1] then none else lent.cells a :=
  c125_add_delete lent_ring rfl rfl rfl lent_owns (by decide) rfl lent_fresh rfl (by decide)
example : ((addRef (fun _ => true) clear lent 0 2).bind fun r => deleteBits r.2.2 3 r.2.1 (some 0)).map (fun h => (List.range 9).map fun a => (h.cells a).isSome) =
    some [false, false, true, true, true, true, true, false, false] := by
  decide +kernel
/-- An item with a constant name that is a reference owns only itself. -/
example : ∃ h', deleteBits ⟨fun a => a == 3, fun a => a == 3⟩ 1 lent (some 3) = some h' ∧ ∀ a, h'.cells a = if a ∈ [3] then none else lent.cells a :=
  c125_delete (.ref (Sn := []) (S := []) rfl rfl rfl .nil) (by decide) (by decide)
example : ∃ h' b' T, createRef (fun _ => true) clear lent 3 = some (some 7, h', b') ∧ Seg h' (some 7) [(none, .str [0x61])] T none ∧ (∀ a, a ≠ 7 → h'.cells a = lent.cells a) ∧ b'.ref 7 = true ∧
    T.length ≤ 3 ∧ h'.used = 8 :=
  c125_shows (nm := some [0x6b]) (S := [3, 4, 5]) (e := none) (.plain (Sn := [4]) (Sv := [5]) (S := []) rfl ⟨4, rfl, rfl, rfl⟩ ⟨rfl, 5, rfl, rfl, rfl⟩ rfl (.nil _)) lent_fresh rfl
example : ∃ h' b' q h'' T, createRef (fun _ => true) clear lent 3 = some (some 7, h', b') ∧ duplicate (fun _ => true) true 3 h' 7 = some (some q, h'') ∧ Doc h'' q (seen (.str [0x61])) T := by
  obtain ⟨h', b', e1, hx⟩ := c125_copy (ok := fun _ => true) (b := clear) (n := 3) (j := .str [0x61]) (nm := some [0x6b]) (S := [3, 4, 5]) (e := none)
    (.plain (Sn := [4]) (Sv := [5]) (S := []) rfl ⟨4, rfl, rfl, rfl⟩ ⟨rfl, 5, rfl, rfl, rfl⟩ rfl (.nil _)) lent_fresh rfl (by decide)
  rcases hx with ⟨_, _, _, k, _, _, hk⟩ | ⟨q, h'', T, e2, e3, _⟩
  · cases hk
  · exact ⟨h', b', q, h'', T, e1, e2, e3⟩
example : ∃ h' b' h'', createRef (fun _ => true) clear lent 2 = some (some 7, h', b') ∧ deleteBits b' 1 h' (some 7) = some h'' ∧ h''.cells = lent.cells := c125_back rfl lent_fresh rfl
example : ∃ h' b', addRef (fun _ => true) clear lent 0 2 = some (true, h', b') ∧ Ring h' 0 [1, 7] := by
  obtain ⟨h', b', -, e1, e2, -⟩ := c125_add (ok := fun _ => true) (b := clear) lent_ring (x := 2) rfl lent_fresh rfl
  exact ⟨h', b', e1, e2⟩
example : ∃ h', addRef (fun _ => false) clear lent 0 2 = some (false, h', clear) ∧ h'.cells = lent.cells := c125_add_no_memory rfl
example : ∃ h', addRefNamed (fun _ => false) clear lent 2 6 0 = some (false, h', clear) ∧ h'.cells = lent.cells := c125_add_named_no_memory rfl
example : ∃ h' b', addRefNamed (fun _ => true) clear lent 2 6 0 = some (true, h', b') ∧ Ring h' 2 [3, 7] ∧ h'.cells 8 = some (.bytes [0x6d]) := by
  obtain ⟨h', b', -, e1, e2, -, -, -, -, -, e3, -⟩ := c125_add_named_partial (ok := fun _ => true) (b := clear) lent_obj (x := 0) (s := 6) (nm := [0x6d]) rfl rfl lent_fresh rfl rfl
  exact ⟨h', b', e1, e2, e3⟩
example : ∃ h' b', addRefNamed (fun i => i != 8) clear lent 2 6 0 = some (false, h', b') ∧ lent.cells 7 = none ∧ (h'.cells 7).isSome = true ∧ ∀ a, a ≠ 7 → h'.cells a = lent.cells a :=
  c125_leak_counterexample (nm := [0x6d]) rfl rfl (by decide) lent_fresh rfl rfl
/-- The array becomes a member of the object under the string at 6 itself. -/
example : ∃ h' b', addConst clear lent 2 6 0 = some (true, h', b') ∧ Ring h' 2 [3, 0] ∧ b'.const 0 = true := by
  obtain ⟨h', b', -, e1, e2, -, -, -, -, -, e3, -⟩ := c125_const (b := clear) (s := 6) lent_obj (a := 0) rfl rfl (by decide) (fun _ o ho => by cases ho)
  exact ⟨h', b', e1, e2, e3⟩

example : ∃ h' b' T h'', createStringRef (fun _ => true) clear lent 6 = some (some 7, h', b') ∧ Seg h' (some 7) [(none, .str [0x6d])] T none ∧ 6 ∈ T ∧ (∀ a, a ≠ 7 → h'.cells a = lent.cells a) ∧
    deleteBits b' 1 h' (some 7) = some h'' ∧ h''.cells = lent.cells := (c125_string (ok := fun _ => true) (n := 0) rfl lent_fresh).resolve_left fun h => by cases h.1
example : ∃ h' b' h'', createListRef (fun _ => true) clear lent false (some 1) = some (some 7, h', b') ∧ Seg h' (some 7) [(none, .arr [.num 4])] [7, 1] none ∧
    (∀ a, a ≠ 7 → h'.cells a = lent.cells a) ∧ deleteBits b' 1 h' (some 7) = some h'' ∧ h''.cells = lent.cells :=
  (c125_array (ok := fun _ => true) (xs := [.num 4]) (n := 0) (.plain (Sn := []) (Sv := []) (S := []) rfl ⟨rfl, rfl⟩ ⟨rfl, rfl, rfl⟩ rfl (.nil _)) lent_fresh).resolve_left fun h => by cases h.1
example : ∃ h' b' h'', createListRef (fun _ => true) clear lent true (some 3) = some (some 7, h', b') ∧ Seg h' (some 7) [(none, .obj [([0x6b], .str [0x61])])] [7, 3, 4, 5] none ∧
    (∀ a, a ≠ 7 → h'.cells a = lent.cells a) ∧ deleteBits b' 1 h' (some 7) = some h'' ∧ h''.cells = lent.cells :=
  (c125_object (ok := fun _ => true) (xs := [([0x6b], .str [0x61])]) (n := 0) (.plain (Sn := [4]) (Sv := [5]) (S := []) rfl ⟨4, rfl, rfl, rfl⟩ ⟨rfl, 5, rfl, rfl, rfl⟩ rfl (.nil _))
    lent_fresh).resolve_left fun h => by cases h.1
example : setStringBits (fun _ => true) ⟨fun a => a == 3, fun _ => false⟩ lent 3 6 = some (none, lent) := c125_set.1 rfl

end Verif.CJsonMem
