import Verif.Model.CJsonCreate
import Verif.Proofs.CJsonDup
import Verif.Proofs.CJsonDupRing
/-
Helper lemmas for C123 and C124: creating items.
-/
namespace Verif.CJsonMem
open Verif.CJson

variable {V α : Type} {h h' h0 h1 : H V} {ok : Nat → Bool}

theorem newItem_part (hf : Fresh h) :
    (∃ h', newItem ok h = (none, h') ∧ Failed h h' ∧ ¬ AllOk ok h h') ∨ (∃ h', newItem ok h = (some h.used, h') ∧ Part ok h h' h.used ⟨.invalid, none, none, none, none, none⟩ []) := by
  by_cases ho : ok h.used = true
  · right
    refine ⟨_, newItem_ok ho, by simp, rfl, by simp, by simp, by simp, ?_, by simp, ?_, ?_⟩
    · intro a ha; simp at ha; simp [ha]
    · intro a ha; dsimp only at ha ⊢; rw [if_neg (by omega)]; exact hf a (by omega)
    · intro k x y; dsimp only at y; rw [show k = h.used by omega]; exact ho
  · left
    exact ⟨_, newItem_fail ho, ⟨rfl, by simp, fun a ha => hf a (by dsimp only at ha; omega)⟩, fun hc => ho (hc h.used (Nat.le_refl _) (by simp))⟩

theorem createItem_ok (hf : Fresh h) {ty : Ty V} {j : J V} (hj : ∀ (h : H V) (it : Item V), it.ty = ty → it.vstr = none → it.child = none → Val h it (seen j) []) :
    ItemRes ok h (none, j) (createItem ok ty h) := by
  unfold createItem
  rcases newItem_part (ok := ok) hf with ⟨h1, e1, F, no⟩ | ⟨h1, e1, P1⟩
  · rw [e1]; exact .inl ⟨h1, rfl, F, no⟩
  · rw [e1]
    dsimp only
    obtain ⟨h2, e2, P2, -⟩ := P1.upd (fun it => { it with ty := ty }) rfl
    rw [e2]
    exact .inr ⟨h.used, h2, rfl, _, [], [], [], P2, .nil, ⟨rfl, rfl⟩, hj _ _ rfl rfl rfl⟩

theorem createString_ok (hf : Fresh h) {s : Nat} {bs : List UInt8} (hs : h.cells s = some (.bytes bs)) : ItemRes ok h (none, .str bs) (createString ok s h) := by
  have hsl : s < h.used := lt_used hf (by simp [hs])
  unfold createString
  rcases newItem_part (ok := ok) hf with ⟨h1, e1, F, no⟩ | ⟨h1, e1, P1⟩
  · rw [e1]; exact .inl ⟨h1, rfl, F, no⟩
  · rw [e1]
    dsimp only
    obtain ⟨h2, e2, P2, -⟩ := P1.upd (fun it => { it with ty := .string }) rfl
    rw [e2, Option.bind_some]
    rcases P2.strdup (p := some s) (nm := some bs) (T := [s]) ⟨s, rfl, by rw [P2.old hsl]; exact hs, rfl⟩ with ⟨h3, e3, c3, u3, no⟩ | ⟨v, Sv, h3, e3, P3, N3, -⟩
    · rw [e3, Option.bind_some]
      dsimp only
      have hq : h3.cells h.used = some (.item { (⟨.invalid, none, none, none, none, none⟩ : Item V) with ty := .string }) := by rw [c3]; exact P2.at_
      rw [upd_eq hq, Option.bind_some]
      obtain ⟨h4, e4, F4, no4⟩ := P2.drop (h' := h3.set h.used (some (.item ⟨.string, none, none, none, none, none⟩))) (Sn := []) (Sv := []) (Sc := []) hf rfl rfl .nil (by simp)
        (by funext a; simp only [H.set]; split
            · next e => rw [e, P2.at_]
            · rw [c3]) u3 no
      exact .inl ⟨h4, by simpa using e4, F4, no4⟩
    · rw [e3, Option.bind_some]
      dsimp only
      obtain ⟨h4, e4, P4, K4⟩ := P3.upd (fun it => { it with vstr := v }) rfl
      rw [e4, Option.bind_some, if_pos rfl]
      rw [List.nil_append] at P3 P4
      have N4 : Name h4 v ((some bs).map cstr) Sv := N3.congr fun a ha => K4 a fun e => (List.nodup_cons.mp P3.nodup).1 (e ▸ ha)
      refine .inr ⟨h.used, h4, rfl, _, Sv, [], Sv, P4, .refl _, ⟨rfl, rfl⟩, ?_⟩
      obtain ⟨a, rfl, ea, rfl⟩ := N4
      show Val h4 _ (seen (.str bs)) _
      rw [seen]
      exact ⟨⟨rfl, a, rfl, ea, rfl⟩, rfl⟩

theorem creates_ok {mk : α → H V → Out V} {val : α → J V} : ∀ (xs : List α), (∀ x ∈ xs, ∀ h, Fresh h → (∀ a, a < h0.used → h.cells a = h0.cells a) → ItemRes ok h (none, val x) (mk x h)) →
    ∀ (h : H V) (q : Nat) (it : Item V) (l : Option Nat) (ys : List (Option (List UInt8) × J V)) (S Sc : List Nat), Part ok h0 h q it (S ++ Sc) → Kids h it l ys Sc →
      LoopRes ok h0 h q it S ys (xs.map fun x => (none, val x)) (creates mk q xs h l) := by
  intro xs
  induction xs with
  | nil =>
    intro _ h q it l ys S Sc hp hk
    exact .inr ⟨l, h, it.child, Sc, rfl, hp, by simpa using hk, fun _ _ => rfl⟩
  | cons x xs ih =>
    intro hx h q it l ys S Sc hp hk
    rw [creates]
    rcases hx x (by simp) h hp.fresh (fun a ha => hp.old ha) with ⟨h1, e1, F1, no⟩ | ⟨c', h1, e1, C1⟩
    · rw [e1, Option.bind_some]
      exact .inl ⟨l, l, ys, h1, h, it.child, Sc, rfl, hp, hk, fun _ _ => rfl, F1.cells, F1.used, not_allOk no hp.used (Nat.le_refl _)⟩
    · rw [e1, Option.bind_some]
      dsimp only
      obtain ⟨h2, y, Sc2, e2, P2, K2, C2⟩ := Kids.hook hp hk C1
      rw [e2, Option.bind_some]
      rcases ih (fun z hz => hx z (by simp [hz])) h2 q { it with child := y } (some c') _ S Sc2 P2 K2 with ⟨l1, l', zs, h7, h8, z, Sc, e7, P8, K8, C8, c7, u7, no⟩ | ⟨l1, h7, z, Sc, e7, P7, K7, C7⟩
      · exact .inl ⟨l1, l', zs, h7, h8, z, Sc, e7, P8, K8, fun a ha => (C8 a ha).trans (C2 a ha), c7, u7, no⟩
      · exact .inr ⟨l1, h7, z, Sc, e7, P7, by simpa using K7, fun a ha => (C7 a ha).trans (C2 a ha)⟩

theorem createArray_ok {mk : α → H V → Out V} {val : α → J V} (xs : List α) (hf : Fresh h0)
    (hx : ∀ x ∈ xs, ∀ h, Fresh h → (∀ a, a < h0.used → h.cells a = h0.cells a) → ItemRes ok h (none, val x) (mk x h)) : ItemRes ok h0 (none, .arr (xs.map val)) (createArray ok mk xs h0) := by
  unfold createArray createItem
  rcases newItem_part (ok := ok) hf with ⟨h1, e1, F, no⟩ | ⟨h1, e1, P1⟩
  · rw [e1]; exact .inl ⟨h1, rfl, F, no⟩
  · rw [e1]
    dsimp only
    obtain ⟨h2, e2, P2, -⟩ := P1.upd (fun it => { it with ty := .array }) rfl
    rw [e2, Option.map_some, Option.bind_some]
    dsimp only
    rcases creates_ok xs hx h2 h0.used _ none [] [] [] P2 ⟨rfl, rfl, rfl⟩ with ⟨l, l', zs, h7, h8, x, Sc, e7, P8, K8, C8, c7, u7, no⟩ | ⟨l, h7, x, Sc, e7, P7, K7, C7⟩
    · rw [e7, Option.bind_some]
      obtain ⟨h9, e9, F9, no9⟩ := P8.drop (h' := h7) (Sn := []) (Sv := []) hf rfl rfl K8.own (by simp) c7 u7 no
      exact .inl ⟨h9, by simpa using e9, F9, no9⟩
    · rw [e7, Option.bind_some]
      dsimp only
      rw [if_pos rfl]
      obtain ⟨h8, e8, P8, S8, C8⟩ := Kids.close P7 K7
      refine .inr ⟨h0.used, h8, by simp [e8], _, Sc, [], Sc, P8, .refl _, ⟨rfl, rfl⟩, ?_⟩
      show Val h8 _ (seen (.arr (xs.map val))) Sc
      rw [seen_arr]
      refine ⟨rfl, rfl, ?_⟩
      simpa [both, Function.comp_def] using S8

/-! ### Links -/

theorem createItem_whole {ty : Ty V} {q : Nat} (hf : Fresh h) (e : createItem ok ty h = some (some q, h')) : Grown h h' q [] := by
  unfold createItem at e
  split at e
  · cases e
  · next q' h1 hn =>
    obtain ⟨h2, e2, e⟩ := Option.map_eq_some_iff.mp e
    cases e
    exact Grown.upd (grown_new hf hn) e2 fun it => ⟨rfl, rfl⟩

theorem createString_whole {s q : Nat} (hf : Fresh h) (e : createString ok s h = some (some q, h')) : Grown h h' q [] := by
  unfold createString at e
  split at e
  · cases e
  · next q' h1 hn =>
    obtain ⟨h2, e2, e⟩ := Option.bind_eq_some_iff.mp e
    obtain ⟨⟨okv, v, h3⟩, e3, e⟩ := Option.bind_eq_some_iff.mp e
    obtain ⟨h4, e4, e⟩ := Option.bind_eq_some_iff.mp e
    split at e
    · next hv =>
      cases e
      have hv : okv = true := hv
      subst hv
      exact Grown.upd (Grown.strdup (Grown.upd (grown_new hf hn) e2 fun it => ⟨rfl, rfl⟩) e3) e4 fun it => ⟨rfl, rfl⟩
    · simp [drop] at e

theorem Grown.creates {mk : α → H V → Out V} {q : Nat} (hmk : ∀ x h c h', Fresh h → mk x h = some (some c, h') → Whole h h' c) :
    ∀ (xs : List α) {h : H V} {cs : List Nat} {last : Option Nat}, Grown h0 h q cs → creates mk q xs h cs.getLast? = some (true, last, h') →
      ∃ cs', Grown h0 h' q (cs ++ cs') ∧ cs'.length = xs.length ∧ last = (cs ++ cs').getLast? := by
  intro xs
  induction xs with
  | nil =>
    intro h cs last g e
    cases e
    exact ⟨[], by simpa using g, rfl, by simp⟩
  | cons x xs ih =>
    intro h cs last g e
    rw [CJsonMem.creates] at e
    obtain ⟨⟨r, h1⟩, e1, e⟩ := Option.bind_eq_some_iff.mp e
    cases r with
    | none => cases e
    | some c =>
      obtain ⟨h2, e2, e⟩ := Option.bind_eq_some_iff.mp e
      have g2 := g.hook (hmk x h c h1 g.fresh e1) e2
      rw [show some c = (cs ++ [c]).getLast? by simp] at e
      obtain ⟨cs', g', hl, e'⟩ := ih g2 e
      exact ⟨c :: cs', by simpa using g', by simp [hl], by simpa using e'⟩

end Verif.CJsonMem
