import Verif.Model.CJsonEdit
import Verif.Spec.CJsonEdit
import Verif.Proofs.CJsonMem
/-
Helper lemmas for C120.
-/
namespace Verif.CJsonMem

variable {V : Type} {h h' : H V}

theorem Run.congr {l : List Nat} : ∀ {pv nx : Option Nat}, Run h pv l nx → (∀ a ∈ l, h'.cells a = h.cells a) → Run h' pv l nx := by
  induction l with
  | nil => intro _ _ _ _; trivial
  | cons a l ih =>
    rintro pv nx ⟨⟨it, e, a1, a2⟩, hr⟩ hc
    exact ⟨⟨it, by rw [hc a (by simp)]; exact e, a1, a2⟩, ih hr fun b hb => hc b (by simp [hb])⟩

/-- The last one of `l`, or else `d`. -/
def lastOr (l : List Nat) (d : Option Nat) : Option Nat :=
  match l with
  | [] => d
  | a :: l => lastOr l (some a)

theorem lastOr_cons (a : Nat) (l : List Nat) (d d' : Option Nat) : lastOr (a :: l) d = lastOr (a :: l) d' := rfl

theorem lastOr_concat (l : List Nat) (a : Nat) : ∀ d, lastOr (l ++ [a]) d = some a := by
  induction l with
  | nil => intro d; rfl
  | cons b l ih => intro d; exact ih (some b)

theorem headOr_append (l : List Nat) (b : Nat) (m : List Nat) (d : Option Nat) : headOr (l ++ b :: m) d = headOr l (some b) := by cases l <;> rfl

theorem run_cons {a : Nat} {l : List Nat} {pv nx : Option Nat} :
    Run h pv (a :: l) nx ↔ (∃ it, h.cells a = some (.item it) ∧ it.prev = pv ∧ it.next = headOr l nx) ∧ Run h (some a) l nx := Iff.rfl

/-- Two runs one after the other. -/
theorem run_append {l : List Nat} {b : Nat} {m : List Nat} : ∀ {pv nx : Option Nat}, Run h pv (l ++ b :: m) nx ↔ Run h pv l (some b) ∧ Run h (lastOr l pv) (b :: m) nx := by
  induction l with
  | nil => intro pv nx; simp [Run, lastOr]
  | cons a l ih =>
    intro pv nx
    rw [List.cons_append, run_cons, ih, headOr_append, run_cons (l := l), and_assoc]
    rfl

theorem upd_eq {p : Nat} {it : Item V} (e : h.cells p = some (.item it)) (f : Item V → Item V) : upd h p f = some (h.set p (some (.item (f it)))) := by
  simp [upd, e]

theorem item_eq {p : Nat} {it : Item V} (e : h.cells p = some (.item it)) : item h p = some it := by simp [item, e]

theorem set_cells (h : H V) (a : Nat) (c : Option (Cell V)) (b : Nat) : (h.set a c).cells b = if b = a then c else h.cells b := rfl

theorem Relinked.set {p : Nat} {A : List Nat} {h0 : H V} (hr : Relinked p A h0 h) {a : Nat} {it : Item V} (e : h.cells a = some (.item it)) (n q c : Option Nat)
    (ha : a = p ∨ a ∈ A) (hc : a = p ∨ c = it.child) : Relinked p A h0 (h.set a (some (.item { it with next := n, prev := q, child := c }))) := by
  obtain ⟨h1, h2, h3⟩ := hr
  refine ⟨h1, fun b x y => ?_, fun b itb eb => ?_⟩
  · rw [set_cells, if_neg, h2 b x y]
    rintro rfl
    rcases ha with ha | ha
    · exact x ha
    · exact y ha
  · obtain ⟨n', q', c', e', hc'⟩ := h3 b itb eb
    rw [set_cells]
    by_cases hb : b = a
    · subst hb
      rw [if_pos rfl]
      rw [e] at e'
      cases e'
      refine ⟨n, q, c, rfl, fun hp => ?_⟩
      rcases hc with hc | hc
      · exact (hp hc).elim
      · rw [hc]; exact hc' hp
    · rw [if_neg hb]; exact ⟨n', q', c', e', hc'⟩

theorem Relinked.refl (p : Nat) (A : List Nat) (h : H V) : Relinked p A h h :=
  ⟨rfl, fun _ _ _ => rfl, fun _ it e => ⟨it.next, it.prev, it.child, e, fun _ => rfl⟩⟩

/-! ### Appending -/

theorem addItem_ring {p a : Nat} {cs : List Nat} {it : Item V} (hr : Ring h p cs) (ha : h.cells a = some (.item it)) (hn : it.next = none) (hp : a ∉ p :: cs) :
    ∃ h', addItem h p a = some (true, h') ∧ Ring h' p (cs ++ [a]) ∧ Relinked p (a :: cs) h h' := by
  obtain ⟨nd, ⟨par, ep, hc⟩, run⟩ := hr
  simp only [List.mem_cons, not_or] at hp
  have hpa : p ≠ a := fun e => hp.1 e.symm
  have nd' : (p :: (cs ++ [a])).Nodup := by
    rw [← List.cons_append, List.nodup_append']
    refine ⟨nd, by simp, fun b hb hb' => ?_⟩
    simp only [List.mem_singleton] at hb'
    subst hb'
    rcases List.mem_cons.mp hb with hb | hb
    · exact hp.1 hb
    · exact hp.2 hb
  unfold addItem
  rw [if_neg hpa, item_eq ep, Option.bind_some]
  cases cs with
  | nil =>
    rw [hc]
    dsimp only [List.head?]
    rw [upd_eq ep, Option.bind_some, upd_eq (it := it) (by rw [set_cells, if_neg hp.1]; exact ha)]
    refine ⟨_, rfl, ⟨nd', ⟨{ par with child := some a }, by rw [set_cells, if_neg hpa, set_cells, if_pos rfl], rfl⟩, ⟨⟨_, by rw [set_cells, if_pos rfl], rfl, rfl⟩, trivial⟩⟩, ?_⟩
    exact ((Relinked.refl p [a] h).set ep par.next par.prev (some a) (.inl rfl) (.inl rfl)).set (by rw [set_cells, if_neg hp.1]; exact ha) none (some a) it.child (.inr (by simp)) (.inr rfl)
  | cons c l =>
    rw [hc]
    dsimp only [List.head?]
    rw [List.nodup_cons, List.nodup_cons] at nd
    obtain ⟨npc, ncl, -⟩ := nd
    simp only [List.mem_cons, not_or] at npc hp
    rcases List.eq_nil_or_concat l with rfl | ⟨l, y, rfl⟩
    · obtain ⟨⟨itc, ec, pc, nc⟩, -⟩ := run
      rw [item_eq ec, Option.bind_some, pc]
      dsimp only [List.getLast?_singleton]
      rw [upd_eq ec, Option.bind_some, upd_eq (it := it) (by rw [set_cells, if_neg hp.2.1]; exact ha), Option.bind_some,
        upd_eq (p := c) (it := { itc with next := some a }) (by rw [set_cells, if_neg (Ne.symm hp.2.1), set_cells, if_pos rfl])]
      refine ⟨_, rfl, ⟨nd', ⟨par, by simp [set_cells, npc.1, hpa, ep], by rw [hc]; rfl⟩, ⟨⟨_, by rw [set_cells, if_pos rfl], rfl, rfl⟩,
        ⟨⟨{ it with prev := some c }, by simp [set_cells, hp.2.1], rfl, hn⟩, trivial⟩⟩⟩, ?_⟩
      refine Relinked.set (Relinked.set (Relinked.set (Relinked.refl p _ h) ec (some a) itc.prev itc.child (.inr (by simp)) (.inr rfl)) (by rw [set_cells, if_neg hp.2.1]; exact ha) it.next (some c)
        it.child (.inr (by simp)) (.inr rfl)) (by rw [set_cells, if_neg (Ne.symm hp.2.1), set_cells, if_pos rfl]) (some a) (some a) itc.child (.inr (by simp)) (.inr rfl)
    · rw [List.concat_eq_append] at *
      have hl : (c :: (l ++ [y])).getLast? = some y := by rw [← List.cons_append, List.getLast?_concat]
      rw [hl, ← List.cons_append, run_append] at run
      obtain ⟨⟨⟨itc, ec, pc, nc⟩, runl⟩, ⟨⟨ity, ey, py, ny⟩, -⟩⟩ := run
      have hcy : c ≠ y := fun e => ncl (by simp [e])
      simp only [List.mem_append, List.mem_singleton, not_or] at npc hp ncl
      have hyl : y ∉ l := by
        have h1 : (l ++ ([y] ++ [a])).Nodup := by
          have := (List.nodup_cons.mp (List.nodup_cons.mp nd').2).2
          rwa [← List.append_assoc]
        exact fun hx => (List.nodup_append'.mp h1).2.2 hx (by simp)
      rw [item_eq ec, Option.bind_some, pc]
      dsimp only
      rw [upd_eq ey, Option.bind_some, upd_eq (it := it) (by rw [set_cells, if_neg hp.2.2.2]; exact ha), Option.bind_some,
        upd_eq (p := c) (it := itc) (by simp [set_cells, Ne.symm hp.2.1, hcy, ec])]
      refine ⟨_, rfl, ⟨nd', ⟨par, by simp [set_cells, npc.1, npc.2.2, hpa, ep], by rw [hc]; rfl⟩, ?_⟩, ?_⟩
      · rw [List.getLast?_concat, run_append, ← List.cons_append, lastOr_concat]
        refine ⟨?_, ⟨⟨{ it with prev := some y }, by simp [set_cells, hp.2.1], rfl, hn⟩, trivial⟩⟩
        rw [run_append]
        refine ⟨⟨⟨{ itc with prev := some a }, by rw [set_cells, if_pos rfl], rfl, nc⟩, runl.congr fun b hb => ?_⟩, ⟨⟨{ ity with next := some a }, by simp [set_cells, hcy.symm, Ne.symm hp.2.2.2], py, rfl⟩, trivial⟩⟩
        have h1 : b ≠ c := fun e => ncl.1 (e ▸ hb)
        have h2 : b ≠ a := fun e => hp.2.2.1 (e ▸ hb)
        have h3 : b ≠ y := fun e => hyl (e ▸ hb)
        simp [set_cells, h1, h2, h3]
      · refine Relinked.set (Relinked.set (Relinked.set (Relinked.refl p _ h) ey (some a) ity.prev ity.child (.inr (by simp)) (.inr rfl)) (by rw [set_cells, if_neg hp.2.2.2]; exact ha) it.next (some y)
          it.child (.inr (by simp)) (.inr rfl)) (by simp [set_cells, Ne.symm hp.2.1, hcy, ec]) itc.next (some a) itc.child (.inr (by simp)) (.inr rfl)

/-! ### Taking out -/

/-- What the addresses being different means. -/
theorem nd_facts {p x : Nat} {l r : List Nat} (nd : (p :: (l ++ x :: r)).Nodup) :
    p ≠ x ∧ p ∉ l ∧ p ∉ r ∧ x ∉ l ∧ x ∉ r ∧ (p :: (l ++ r)).Nodup ∧ (∀ a ∈ l, a ∉ r) ∧ l.Nodup ∧ r.Nodup := by
  rw [List.nodup_cons, List.nodup_append', List.nodup_cons] at nd
  obtain ⟨h1, h2, ⟨h3, h4⟩, h5⟩ := nd
  simp only [List.mem_append, List.mem_cons, not_or] at h1
  refine ⟨h1.2.1, h1.1, h1.2.2, fun hx => h5 hx (by simp), h3, ?_, fun a ha hb => h5 ha (by simp [hb]), h2, h4⟩
  rw [List.nodup_cons, List.nodup_append']
  exact ⟨by simp [h1], h2, h4, fun a ha hb => h5 ha (by simp [hb])⟩

theorem getLast?_lastOr (l : List Nat) : l.getLast? = lastOr l none := by
  rcases List.eq_nil_or_concat l with rfl | ⟨l, y, rfl⟩
  · rfl
  · rw [List.concat_eq_append, List.getLast?_concat, lastOr_concat]

theorem lastOr_append_cons (l : List Nat) (a : Nat) (m : List Nat) : ∀ d, lastOr (l ++ a :: m) d = lastOr m (some a) := by
  induction l with
  | nil => intro d; rfl
  | cons b l ih => intro d; exact ih (some b)

theorem head?_headOr (l : List Nat) : l.head? = headOr l none := by cases l <;> rfl

theorem detach_ring {p x : Nat} {l r : List Nat} (hr : Ring h p (l ++ x :: r)) :
    ∃ h', detach h p x = some h' ∧ Ring h' p (l ++ r) ∧ Relinked p (l ++ x :: r) h h' ∧ ∃ it, h'.cells x = some (.item it) ∧ it.next = none ∧ it.prev = none := by
  obtain ⟨nd, ⟨par, ep, hc⟩, run⟩ := hr
  obtain ⟨px, pl, pr, xl, xr, nd', dis, ndl, ndr⟩ := nd_facts nd
  rw [run_append, run_cons, getLast?_lastOr, lastOr_append_cons] at run
  obtain ⟨runl, ⟨itx, ex, bx, nx⟩, runr⟩ := run
  rw [head?_headOr, headOr_append] at hc
  unfold detach
  rw [item_eq ep, Option.bind_some, item_eq ex, Option.bind_some]
  rcases List.eq_nil_or_concat l with rfl | ⟨l, y, rfl⟩
  · -- the first one
    have hc : par.child = some x := hc
    rw [if_neg (by simp [hc]), Option.bind_some]
    cases r with
    | nil =>
      have nx : itx.next = none := nx
      rw [if_neg (by simp [nx]), Option.bind_some, if_pos hc, upd_eq ep, Option.bind_some, upd_eq (it := itx) (by simp [set_cells, Ne.symm px, ex])]
      refine ⟨_, rfl, ⟨by simp, ⟨{ par with child := itx.next }, by simp [set_cells, px], by simp [nx]⟩, trivial⟩, ?_, ⟨_, by rw [set_cells, if_pos rfl], rfl, rfl⟩⟩
      exact ((Relinked.refl p _ h).set ep par.next par.prev _ (.inl rfl) (.inl rfl)).set (by simp [set_cells, Ne.symm px, ex]) none none itx.child (.inr (by simp)) (.inr rfl)
    | cons z r =>
      have nx : itx.next = some z := nx
      obtain ⟨⟨itz, ez, bz, nz⟩, runr⟩ := runr
      simp only [List.mem_cons, not_or] at pr xr
      rw [if_pos (by simp [nx]), nx, updAt, Option.bind_some, upd_eq ez, Option.bind_some, if_pos hc, upd_eq (it := par) (by simp [set_cells, pr.1, ep]), Option.bind_some,
        upd_eq (it := itx) (by simp [set_cells, Ne.symm px, xr.1, ex])]
      refine ⟨_, rfl, ⟨nd', ⟨{ par with child := some z }, by simp [set_cells, px], rfl⟩, ?_⟩, ?_, ⟨_, by rw [set_cells, if_pos rfl], rfl, rfl⟩⟩
      · rw [List.nil_append, getLast?_lastOr, run_cons]
        refine ⟨⟨{ itz with prev := itx.prev }, by simp [set_cells, Ne.symm xr.1, Ne.symm pr.1], bx, nz⟩, runr.congr fun b hb => ?_⟩
        have h1 : b ≠ x := fun e => xr.2 (e ▸ hb)
        have h2 : b ≠ p := fun e => pr.2 (e ▸ hb)
        have h3 : b ≠ z := fun e => (List.nodup_cons.mp ndr).1 (e ▸ hb)
        simp [set_cells, h1, h2, h3]
      · exact (((Relinked.refl p _ h).set ez itz.next itx.prev itz.child (.inr (by simp)) (.inr rfl)).set (it := par) (by simp [set_cells, pr.1, ep]) par.next par.prev _ (.inl rfl) (.inl rfl)).set
          (it := itx) (by simp [set_cells, Ne.symm px, xr.1, ex]) none none itx.child (.inr (by simp)) (.inr rfl)
  · rw [List.concat_eq_append] at *
    obtain ⟨c, m, em⟩ : ∃ c m, l ++ [y] = c :: m := by cases l <;> simp
    have hcl : c ∈ l ++ [y] := by rw [em]; simp
    have hc : par.child = some c := by rw [hc, em]; rfl
    have hcx : c ≠ x := fun e => xl (e ▸ hcl)
    have hcp : c ≠ p := fun e => pl (e ▸ hcl)
    rw [lastOr_concat] at bx
    have runl0 := runl
    rw [run_append] at runl
    obtain ⟨runl, ⟨ity, ey, byy, ny⟩, -⟩ := runl
    have hyx : y ≠ x := fun e => xl (by simp [e])
    have hyp : y ≠ p := fun e => pl (by simp [e])
    have hyl : y ∉ l := fun hx => (List.nodup_append'.mp ndl).2.2 hx (by simp)
    rw [if_pos (by rw [hc]; simpa using hcx), bx, updAt, Option.bind_some, upd_eq ey, Option.bind_some]
    cases r with
    | nil =>
      have nx : itx.next = none := nx
      rw [if_neg (by simp [nx]), Option.bind_some, if_neg (by rw [hc]; simpa using hcx), if_pos nx, hc, updAt, Option.bind_some]
      rw [List.append_nil] at nd' ⊢
      by_cases hcy : c = y
      · subst hcy
        have hl : l = [] := by
          cases l with
          | nil => rfl
          | cons d l => cases em; exact (hyl (by simp)).elim
        subst hl
        rw [upd_eq (p := c) (it := { ity with next := itx.next }) (by simp [set_cells]), Option.bind_some, upd_eq (it := itx) (by simp [set_cells, Ne.symm hyx, ex])]
        refine ⟨_, rfl, ⟨nd', ⟨par, by simp [set_cells, px, Ne.symm hyp, ep], by rw [hc]; rfl⟩, ⟨⟨{ ity with next := itx.next, prev := some c }, by simp [set_cells, hyx], rfl, nx⟩, trivial⟩⟩, ?_,
          ⟨_, by rw [set_cells, if_pos rfl], rfl, rfl⟩⟩
        exact Relinked.set (Relinked.set (Relinked.set (Relinked.refl p _ h) ey itx.next ity.prev ity.child (.inr (by simp)) (.inr rfl)) (it := { ity with next := itx.next })
          (by simp [set_cells]) itx.next (some c) ity.child (.inr (by simp)) (.inr rfl)) (it := itx) (by simp [set_cells, Ne.symm hyx, ex]) none none itx.child (.inr (by simp)) (.inr rfl)
      · obtain ⟨l, rfl⟩ : ∃ l', l = c :: l' := by
          cases l with
          | nil => cases em; exact (hcy rfl).elim
          | cons d l => cases em; exact ⟨l, rfl⟩
        obtain ⟨⟨itc, ec, bc, nc⟩, runl⟩ := runl
        rw [upd_eq (p := c) (it := itc) (by simp [set_cells, hcy, ec]), Option.bind_some, upd_eq (it := itx) (by simp [set_cells, Ne.symm hyx, Ne.symm hcx, ex])]
        refine ⟨_, rfl, ⟨nd', ⟨par, by simp [set_cells, px, Ne.symm hyp, Ne.symm hcp, ep], by rw [hc]; rfl⟩, ?_⟩, ?_, ⟨_, by rw [set_cells, if_pos rfl], rfl, rfl⟩⟩
        · rw [getLast?_lastOr, lastOr_concat, run_append]
          refine ⟨⟨⟨{ itc with prev := some y }, by simp [set_cells, hcx], rfl, nc⟩, runl.congr fun b hb => ?_⟩, ⟨⟨{ ity with next := itx.next }, by simp [set_cells, hyx, Ne.symm hcy], byy, nx⟩, trivial⟩⟩
          have h1 : b ≠ x := fun e => xl (by simp [← e, hb])
          have h2 : b ≠ c := fun e => (List.nodup_cons.mp ndl).1 (by simp [← e, hb])
          have h3 : b ≠ y := fun e => hyl (by simp [← e, hb])
          simp [set_cells, h1, h2, h3]
        · exact Relinked.set (Relinked.set (Relinked.set (Relinked.refl p _ h) ey itx.next ity.prev ity.child (.inr (by simp)) (.inr rfl)) (it := itc)
            (by simp [set_cells, hcy, ec]) itc.next (some y) itc.child (.inr (by simp)) (.inr rfl)) (it := itx) (by simp [set_cells, Ne.symm hyx, Ne.symm hcx, ex]) none none itx.child (.inr (by simp)) (.inr rfl)
    | cons z r =>
      have nx : itx.next = some z := nx
      obtain ⟨⟨itz, ez, bz, nz⟩, runr⟩ := runr
      simp only [List.mem_cons, not_or] at pr xr
      have hzl : z ∉ l ++ [y] := fun hx => dis z hx (by simp)
      have hzy : z ≠ y := fun e => hzl (by simp [e])
      rw [if_pos (by simp [nx]), nx, updAt, Option.bind_some, upd_eq (p := z) (it := itz) (by simp [set_cells, hzy, ez]), Option.bind_some, if_neg (by rw [hc]; simpa using hcx), if_neg (by simp),
        Option.bind_some, upd_eq (it := itx) (by simp [set_cells, xr.1, Ne.symm hyx, ex])]
      refine ⟨_, rfl, ⟨nd', ⟨par, by simp [set_cells, px, Ne.symm hyp, pr.1, ep], by rw [hc, em]; rfl⟩, ?_⟩, ?_, ⟨_, by rw [set_cells, if_pos rfl], rfl, rfl⟩⟩
      · rw [getLast?_lastOr, lastOr_append_cons, run_append, lastOr_concat]
        refine ⟨?_, ⟨⟨{ itz with prev := some y }, by simp [set_cells, Ne.symm xr.1], rfl, nz⟩, runr.congr fun b hb => ?_⟩⟩
        · rw [run_append]
          refine ⟨?_, ⟨⟨{ ity with next := some z }, by simp [set_cells, hyx, Ne.symm hzy], ?_, rfl⟩, trivial⟩⟩
          · refine Run.congr runl fun b hb => ?_
            have h1 : b ≠ x := fun e => xl (by simp [← e, hb])
            have h2 : b ≠ z := fun e => hzl (by simp [← e, hb])
            have h3 : b ≠ y := fun e => hyl (by simp [← e, hb])
            simp [set_cells, h1, h2, h3]
          · exact byy
        · have h1 : b ≠ x := fun e => xr.2 (by simp [← e, hb])
          have h2 : b ≠ z := fun e => (List.nodup_cons.mp ndr).1 (by simp [← e, hb])
          have h3 : b ≠ y := fun e => dis y (by simp) (by simp [← e, hb])
          simp [set_cells, h1, h2, h3]
      · exact Relinked.set (Relinked.set (Relinked.set (Relinked.refl p _ h) ey (some z) ity.prev ity.child (.inr (by simp)) (.inr rfl)) (it := itz)
          (by simp [set_cells, hzy, ez]) itz.next (some y) itz.child (.inr (by simp)) (.inr rfl)) (it := itx) (by simp [set_cells, xr.1, Ne.symm hyx, ex]) none none itx.child (.inr (by simp)) (.inr rfl)

/-! ### Inserting -/

theorem insert_nodup {p a : Nat} {l r : List Nat} (nd : (p :: (l ++ r)).Nodup) (ha : a ∉ p :: (l ++ r)) : (p :: (l ++ a :: r)).Nodup := by
  have h1 : List.Perm (p :: (l ++ a :: r)) (a :: p :: (l ++ r)) := (List.Perm.cons p List.perm_middle).trans (List.Perm.swap a p _)
  rw [h1.nodup_iff, List.nodup_cons]
  exact ⟨ha, nd⟩

theorem insert_ring {p y a : Nat} {l r : List Nat} {it : Item V} (hr : Ring h p (l ++ y :: r)) (ha : h.cells a = some (.item it)) (hap : a ∉ p :: (l ++ y :: r))
    (hi : arrayItem h p l.length = some (some y)) :
    ∃ h', insertAt h p l.length a = some (true, h') ∧ Ring h' p (l ++ a :: y :: r) ∧ Relinked p (a :: (l ++ y :: r)) h h' := by
  have hr0 := hr
  obtain ⟨nd, ⟨par, ep, hc⟩, run⟩ := hr
  have nda := insert_nodup (a := a) nd hap
  obtain ⟨py, pl, pr, yl, yr, -, dis, ndl, ndr⟩ := nd_facts nd
  obtain ⟨pa, -, -, al, ayr, -, -, -, -⟩ := nd_facts nda
  simp only [List.mem_cons, not_or] at ayr
  rw [run_append, run_cons, getLast?_lastOr, lastOr_append_cons] at run
  obtain ⟨runl, ⟨ity, ey, by', ny⟩, runr⟩ := run
  rw [head?_headOr, headOr_append] at hc
  unfold insertAt
  rw [hi, Option.bind_some]
  dsimp only
  rw [item_eq ey, Option.bind_some, upd_eq ha, Option.bind_some, upd_eq (p := y) (it := ity) (by simp [set_cells, Ne.symm ayr.1, ey]), Option.bind_some,
    item_eq (p := p) (it := par) (by simp [set_cells, py, pa, ep]), Option.bind_some]
  have hrel : Relinked p (a :: (l ++ y :: r)) h ((h.set a (some (.item { it with next := some y, prev := ity.prev }))).set y (some (.item { ity with prev := some a }))) :=
    Relinked.set (Relinked.set (Relinked.refl p _ h) ha (some y) ity.prev it.child (.inr (by simp)) (.inr rfl)) (it := ity) (by simp [set_cells, Ne.symm ayr.1, ey]) ity.next (some a) ity.child
      (.inr (by simp)) (.inr rfl)
  rcases List.eq_nil_or_concat l with rfl | ⟨l, w, rfl⟩
  · have hc : par.child = some y := hc
    rw [if_pos hc, upd_eq (p := p) (it := par) (by simp [set_cells, py, pa, ep])]
    refine ⟨_, rfl, ⟨nda, ⟨{ par with child := some a }, by simp [set_cells], rfl⟩, ?_⟩, hrel.set (it := par) (by simp [set_cells, py, pa, ep]) par.next par.prev (some a) (.inl rfl) (.inl rfl)⟩
    rw [List.nil_append, getLast?_lastOr, run_cons, run_cons]
    refine ⟨⟨{ it with next := some y, prev := ity.prev }, by simp [set_cells, Ne.symm pa, ayr.1], by'.trans ?_, rfl⟩, ⟨{ ity with prev := some a }, by simp [set_cells, Ne.symm py], rfl, ny⟩, runr.congr fun b hb => ?_⟩
    · rfl
    · have h1 : b ≠ p := fun e => pr (e ▸ hb)
      have h2 : b ≠ y := fun e => yr (e ▸ hb)
      have h3 : b ≠ a := fun e => ayr.2 (e ▸ hb)
      simp [set_cells, h1, h2, h3]
  · rw [List.concat_eq_append] at *
    obtain ⟨c, m, em⟩ : ∃ c m, l ++ [w] = c :: m := by cases l <;> simp
    have hcl : c ∈ l ++ [w] := by rw [em]; simp
    have hc : par.child = some c := by rw [hc, em]; rfl
    have hcy : c ≠ y := fun e => yl (e ▸ hcl)
    rw [lastOr_concat] at by'
    rw [run_append] at runl
    obtain ⟨runl, ⟨itw, ew, bw, nw⟩, -⟩ := runl
    have hwy : w ≠ y := fun e => yl (by simp [e])
    have hwp : w ≠ p := fun e => pl (by simp [e])
    have hwa : w ≠ a := fun e => al (by simp [e])
    have hwl : w ∉ l := fun hx => (List.nodup_append'.mp ndl).2.2 hx (by simp)
    rw [if_neg (by rw [hc]; simpa using hcy), by', updAt, Option.bind_some, upd_eq (p := w) (it := itw) (by simp [set_cells, hwy, hwa, ew])]
    rw [by'] at hrel
    refine ⟨_, rfl, ⟨nda, ⟨par, by simp [set_cells, py, pa, Ne.symm hwp, ep], by rw [hc, em]; rfl⟩, ?_⟩, hrel.set (it := itw) (by simp [set_cells, hwy, hwa, ew]) (some a) itw.prev itw.child (.inr (by simp)) (.inr rfl)⟩
    rw [getLast?_lastOr, lastOr_append_cons, run_append, lastOr_concat, run_cons, run_cons]
    refine ⟨?_, ⟨{ it with next := some y, prev := some w }, by simp [set_cells, Ne.symm hwa, ayr.1], rfl, rfl⟩, ⟨{ ity with prev := some a }, by simp [set_cells, Ne.symm hwy], rfl, ny⟩, runr.congr fun b hb => ?_⟩
    · rw [run_append]
      refine ⟨Run.congr runl fun b hb => ?_, ⟨⟨{ itw with next := some a }, by simp [set_cells], bw, rfl⟩, trivial⟩⟩
      have h1 : b ≠ w := fun e => hwl (e ▸ hb)
      have h2 : b ≠ y := fun e => yl (by simp [← e, hb])
      have h3 : b ≠ a := fun e => al (by simp [← e, hb])
      simp [set_cells, h1, h2, h3]
    · have h1 : b ≠ w := fun e => dis w (by simp) (e ▸ hb)
      have h2 : b ≠ y := fun e => yr (e ▸ hb)
      have h3 : b ≠ a := fun e => ayr.2 (e ▸ hb)
      simp [set_cells, h1, h2, h3]

/-! ### Replacing -/

theorem lastOr_mem {l : List Nat} {d : Option Nat} {y : Nat} (e : lastOr l d = some y) : d = some y ∧ l = [] ∨ y ∈ l := by
  rcases List.eq_nil_or_concat l with rfl | ⟨l, w, rfl⟩
  · exact .inl ⟨e, rfl⟩
  · rw [List.concat_eq_append, lastOr_concat] at e
    cases e
    simp

theorem replaceLinks_ring {p x a : Nat} {l r : List Nat} {it : Item V} (hr : Ring h p (l ++ x :: r)) (ha : h.cells a = some (.item it)) (hap : a ∉ p :: (l ++ x :: r)) :
    ∃ h', replaceLinks h p x a = some h' ∧ Ring h' p (l ++ a :: r) ∧ Relinked p (a :: (l ++ x :: r)) h h' ∧ ∃ it, h'.cells x = some (.item it) ∧ it.next = none ∧ it.prev = none := by
  obtain ⟨nd, ⟨par, ep, hc⟩, run⟩ := hr
  have nda := insert_nodup (a := a) nd hap
  obtain ⟨px, pl, pr, xl, xr, nd0, dis, ndl, ndr⟩ := nd_facts nd
  obtain ⟨pa, -, -, al, axr, -, -, -, -⟩ := nd_facts nda
  simp only [List.mem_cons, not_or] at axr
  have nd1 : (p :: (l ++ a :: r)).Nodup := insert_nodup nd0 (by simp [Ne.symm pa, al, axr.2])
  rw [run_append, run_cons, getLast?_lastOr, lastOr_append_cons] at run
  obtain ⟨runl, ⟨itx, ex, bx, nx⟩, runr⟩ := run
  rw [head?_headOr, headOr_append] at hc
  have hax : a ≠ x := axr.1
  unfold replaceLinks
  rw [item_eq ex, Option.bind_some, upd_eq ha, Option.bind_some]
  cases r with
  | nil =>
    have nx : itx.next = none := nx
    rw [if_neg (by simp [nx]), Option.bind_some, item_eq (p := p) (it := par) (by simp [set_cells, pa, ep]), Option.bind_some]
    rcases List.eq_nil_or_concat l with rfl | ⟨l, y, rfl⟩
    · have hc : par.child = some x := hc
      have bx : itx.prev = some x := bx
      rw [if_pos hc, item_eq (p := x) (it := itx) (by simp [set_cells, Ne.symm hax, ex]), Option.bind_some, if_pos bx,
        upd_eq (p := a) (it := { it with next := itx.next, prev := itx.prev }) (by simp [set_cells]), Option.bind_some, upd_eq (p := p) (it := par) (by simp [set_cells, pa, ep]), Option.bind_some,
        upd_eq (p := x) (it := itx) (by simp [set_cells, Ne.symm hax, Ne.symm px, ex])]
      refine ⟨_, rfl, ⟨nd1, ⟨{ par with child := some a }, by simp [set_cells, px], rfl⟩, ⟨⟨{ it with next := itx.next, prev := some a }, by simp [set_cells, Ne.symm pa, hax], rfl, nx⟩, trivial⟩⟩, ?_,
        ⟨_, by rw [set_cells, if_pos rfl], rfl, rfl⟩⟩
      exact Relinked.set (Relinked.set (Relinked.set (Relinked.set (Relinked.refl p _ h) ha itx.next itx.prev it.child (.inr (by simp)) (.inr rfl))
        (it := { it with next := itx.next, prev := itx.prev }) (by simp [set_cells]) itx.next (some a) it.child (.inr (by simp)) (.inr rfl))
        (it := par) (by simp [set_cells, pa, ep]) par.next par.prev (some a) (.inl rfl) (.inl rfl))
        (it := itx) (by simp [set_cells, Ne.symm hax, Ne.symm px, ex]) none none itx.child (.inr (by simp)) (.inr rfl)
    · rw [List.concat_eq_append] at *
      obtain ⟨c, m, em⟩ : ∃ c m, l ++ [y] = c :: m := by cases l <;> simp
      have hcl : c ∈ l ++ [y] := by rw [em]; simp
      have hc : par.child = some c := by rw [hc, em]; rfl
      have hcx : c ≠ x := fun e => xl (e ▸ hcl)
      have hca : c ≠ a := fun e => al (e ▸ hcl)
      have hcp : c ≠ p := fun e => pl (e ▸ hcl)
      rw [lastOr_concat] at bx
      rw [run_append] at runl
      obtain ⟨runl, ⟨ity, ey, byy, ny⟩, -⟩ := runl
      have hyx : y ≠ x := fun e => xl (by simp [e])
      have hya : y ≠ a := fun e => al (by simp [e])
      have hyp : y ≠ p := fun e => pl (by simp [e])
      have hyl : y ∉ l := fun hx => (List.nodup_append'.mp ndl).2.2 hx (by simp)
      rw [if_neg (by rw [hc]; simpa using hcx), bx, if_pos (by simp), updAt, Option.bind_some, upd_eq (p := y) (it := ity) (by simp [set_cells, hya, ey]), Option.bind_some, if_pos nx, hc, updAt,
        Option.bind_some]
      by_cases hcy : c = y
      · subst hcy
        have hl : l = [] := by
          cases l with
          | nil => rfl
          | cons d l => cases em; exact (hyl (by simp)).elim
        subst hl
        rw [upd_eq (p := c) (it := { ity with next := some a }) (by simp [set_cells]), Option.bind_some, upd_eq (p := x) (it := itx) (by simp [set_cells, Ne.symm hax, Ne.symm hcx, ex])]
        refine ⟨_, rfl, ⟨nd1, ⟨par, by simp [set_cells, px, pa, Ne.symm hyp, ep], by rw [hc]; rfl⟩, ⟨⟨{ ity with next := some a, prev := some a }, by simp [set_cells, hyx], rfl, rfl⟩,
          ⟨⟨{ it with next := itx.next, prev := some c }, by simp [set_cells, hax, Ne.symm hca], rfl, nx⟩, trivial⟩⟩⟩, ?_, ⟨_, by rw [set_cells, if_pos rfl], rfl, rfl⟩⟩
        exact Relinked.set (Relinked.set (Relinked.set (Relinked.set (Relinked.refl p _ h) ha itx.next (some c) it.child (.inr (by simp)) (.inr rfl))
          (it := ity) (by simp [set_cells, hya, ey]) (some a) ity.prev ity.child (.inr (by simp)) (.inr rfl))
          (it := { ity with next := some a }) (by simp [set_cells]) (some a) (some a) ity.child (.inr (by simp)) (.inr rfl))
          (it := itx) (by simp [set_cells, Ne.symm hax, Ne.symm hcx, ex]) none none itx.child (.inr (by simp)) (.inr rfl)
      · obtain ⟨l, rfl⟩ : ∃ l', l = c :: l' := by
          cases l with
          | nil => cases em; exact (hcy rfl).elim
          | cons d l => cases em; exact ⟨l, rfl⟩
        obtain ⟨⟨itc, ec, bc, nc⟩, runl⟩ := runl
        rw [upd_eq (p := c) (it := itc) (by simp [set_cells, hcy, hca, ec]), Option.bind_some, upd_eq (p := x) (it := itx) (by simp [set_cells, Ne.symm hax, Ne.symm hcx, Ne.symm hyx, ex])]
        refine ⟨_, rfl, ⟨nd1, ⟨par, by simp [set_cells, px, pa, Ne.symm hyp, Ne.symm hcp, ep], by rw [hc]; rfl⟩, ?_⟩, ?_, ⟨_, by rw [set_cells, if_pos rfl], rfl, rfl⟩⟩
        · rw [getLast?_lastOr, lastOr_append_cons, run_append, lastOr_concat, run_append]
          refine ⟨⟨⟨⟨{ itc with prev := some a }, by simp [set_cells, hcx], rfl, nc⟩, runl.congr fun b hb => ?_⟩, ⟨⟨{ ity with next := some a }, by simp [set_cells, hyx, Ne.symm hcy], byy, rfl⟩, trivial⟩⟩,
            ⟨⟨{ it with next := itx.next, prev := some y }, by simp [set_cells, hax, Ne.symm hca, Ne.symm hya], rfl, nx⟩, trivial⟩⟩
          have h1 : b ≠ x := fun e => xl (by simp [← e, hb])
          have h2 : b ≠ c := fun e => (List.nodup_cons.mp ndl).1 (by simp [← e, hb])
          have h3 : b ≠ y := fun e => hyl (by simp [← e, hb])
          have h4 : b ≠ a := fun e => al (by simp [← e, hb])
          simp [set_cells, h1, h2, h3, h4]
        · exact Relinked.set (Relinked.set (Relinked.set (Relinked.set (Relinked.refl p _ h) ha itx.next (some y) it.child (.inr (by simp)) (.inr rfl))
            (it := ity) (by simp [set_cells, hya, ey]) (some a) ity.prev ity.child (.inr (by simp)) (.inr rfl))
            (it := itc) (by simp [set_cells, hcy, hca, ec]) itc.next (some a) itc.child (.inr (by simp)) (.inr rfl))
            (it := itx) (by simp [set_cells, Ne.symm hax, Ne.symm hcx, Ne.symm hyx, ex]) none none itx.child (.inr (by simp)) (.inr rfl)
  | cons z r =>
    have nx : itx.next = some z := nx
    obtain ⟨⟨itz, ez, bz, nz⟩, runr⟩ := runr
    simp only [List.mem_cons, not_or] at pr xr axr
    obtain ⟨-, haz, har⟩ := axr
    have hzr := (List.nodup_cons.mp ndr).1
    rw [if_pos (by simp [nx]), nx, updAt, Option.bind_some, upd_eq (p := z) (it := itz) (by simp [set_cells, Ne.symm haz, ez]), Option.bind_some,
      item_eq (p := p) (it := par) (by simp [set_cells, pa, pr.1, ep]), Option.bind_some]
    have rel1 : Relinked p (a :: (l ++ x :: z :: r)) h ((h.set a (some (.item { it with next := some z, prev := itx.prev }))).set z (some (.item { itz with prev := some a }))) :=
      Relinked.set (Relinked.set (Relinked.refl p _ h) ha (some z) itx.prev it.child (.inr (by simp)) (.inr rfl))
        (it := itz) (by simp [set_cells, Ne.symm haz, ez]) itz.next (some a) itz.child (.inr (by simp)) (.inr rfl)
    rcases List.eq_nil_or_concat l with rfl | ⟨l, y, rfl⟩
    · have hc : par.child = some x := hc
      have hbx : itx.prev ≠ some x := by
        rw [bx]
        intro e
        rcases lastOr_mem (l := r) (d := some z) e with ⟨e1, -⟩ | e1
        · exact xr.1 (Option.some.inj e1).symm
        · exact xr.2 e1
      rw [if_pos hc, item_eq (p := x) (it := itx) (by simp [set_cells, Ne.symm hax, xr.1, ex]), Option.bind_some, if_neg hbx, Option.bind_some,
        upd_eq (p := p) (it := par) (by simp [set_cells, pa, pr.1, ep]), Option.bind_some, upd_eq (p := x) (it := itx) (by simp [set_cells, Ne.symm hax, Ne.symm px, xr.1, ex])]
      refine ⟨_, rfl, ⟨nd1, ⟨{ par with child := some a }, by simp [set_cells, px], rfl⟩, ?_⟩, ?_, ⟨_, by rw [set_cells, if_pos rfl], rfl, rfl⟩⟩
      · rw [List.nil_append, getLast?_lastOr, run_cons, run_cons]
        refine ⟨⟨{ it with next := some z, prev := itx.prev }, by simp [set_cells, hax, Ne.symm pa, haz], bx, rfl⟩, ⟨{ itz with prev := some a }, by simp [set_cells, Ne.symm xr.1, Ne.symm pr.1], rfl, nz⟩,
          runr.congr fun b hb => ?_⟩
        have h1 : b ≠ x := fun e => xr.2 (e ▸ hb)
        have h2 : b ≠ z := fun e => hzr (e ▸ hb)
        have h3 : b ≠ p := fun e => pr.2 (e ▸ hb)
        have h4 : b ≠ a := fun e => har (e ▸ hb)
        simp [set_cells, h1, h2, h3, h4]
      · exact Relinked.set (Relinked.set rel1 (it := par) (by simp [set_cells, pa, pr.1, ep]) par.next par.prev (some a) (.inl rfl) (.inl rfl))
          (it := itx) (by simp [set_cells, Ne.symm hax, Ne.symm px, xr.1, ex]) none none itx.child (.inr (by simp)) (.inr rfl)
    · rw [List.concat_eq_append] at *
      obtain ⟨c, m, em⟩ : ∃ c m, l ++ [y] = c :: m := by cases l <;> simp
      have hcl : c ∈ l ++ [y] := by rw [em]; simp
      have hc : par.child = some c := by rw [hc, em]; rfl
      have hcx : c ≠ x := fun e => xl (e ▸ hcl)
      rw [lastOr_concat] at bx
      rw [run_append] at runl
      obtain ⟨runl, ⟨ity, ey, byy, ny⟩, -⟩ := runl
      have hyx : y ≠ x := fun e => xl (by simp [e])
      have hya : y ≠ a := fun e => al (by simp [e])
      have hyp : y ≠ p := fun e => pl (by simp [e])
      have hyl : y ∉ l := fun hx => (List.nodup_append'.mp ndl).2.2 hx (by simp)
      have hzl : z ∉ l ++ [y] := fun hx => dis z hx (by simp)
      have hyz : y ≠ z := fun e => hzl (by simp [e])
      rw [bx] at rel1
      rw [if_neg (by rw [hc]; simpa using hcx), bx, if_pos (by simp), updAt, Option.bind_some, upd_eq (p := y) (it := ity) (by simp [set_cells, hya, hyz, ey]), Option.bind_some, if_neg (by simp),
        Option.bind_some, upd_eq (p := x) (it := itx) (by simp [set_cells, Ne.symm hax, xr.1, Ne.symm hyx, ex])]
      refine ⟨_, rfl, ⟨nd1, ⟨par, by simp [set_cells, px, pa, Ne.symm hyp, pr.1, ep], by rw [hc, em]; rfl⟩, ?_⟩, ?_, ⟨_, by rw [set_cells, if_pos rfl], rfl, rfl⟩⟩
      · rw [getLast?_lastOr, lastOr_append_cons, run_append, lastOr_concat, run_append, run_cons, run_cons]
        refine ⟨⟨runl.congr fun b hb => ?_, ⟨⟨{ ity with next := some a }, by simp [set_cells, hyx], byy, rfl⟩, trivial⟩⟩,
          ⟨{ it with next := some z, prev := some y }, by simp [set_cells, hax, Ne.symm hya, haz], rfl, rfl⟩,
          ⟨{ itz with prev := some a }, by simp [set_cells, Ne.symm xr.1, Ne.symm hyz], rfl, nz⟩, runr.congr fun b hb => ?_⟩
        · have h1 : b ≠ x := fun e => xl (by simp [← e, hb])
          have h2 : b ≠ z := fun e => hzl (by simp [← e, hb])
          have h3 : b ≠ y := fun e => hyl (by simp [← e, hb])
          have h4 : b ≠ a := fun e => al (by simp [← e, hb])
          simp [set_cells, h1, h2, h3, h4]
        · have h1 : b ≠ x := fun e => xr.2 (e ▸ hb)
          have h2 : b ≠ z := fun e => hzr (e ▸ hb)
          have h3 : b ≠ y := fun e => dis y (by simp) (by simp [← e, hb])
          have h4 : b ≠ a := fun e => har (e ▸ hb)
          simp [set_cells, h1, h2, h3, h4]
      · exact Relinked.set (Relinked.set rel1 (it := ity) (by simp [set_cells, hya, hyz, ey]) (some a) ity.prev ity.child (.inr (by simp)) (.inr rfl))
          (it := itx) (by simp [set_cells, Ne.symm hax, xr.1, Ne.symm hyx, ex]) none none itx.child (.inr (by simp)) (.inr rfl)

/-! ### The item with a number -/

theorem nth_run {l : List Nat} : ∀ {pv : Option Nat} (i : Nat), Run h pv l none → nth h (headOr l none) i = some l[i]? := by
  induction l with
  | nil => intro pv i _; cases i <;> rfl
  | cons a l ih =>
    rintro pv i ⟨⟨it, e, -, n⟩, hr⟩
    cases i with
    | zero => rfl
    | succ i =>
      rw [headOr, nth, item_eq e, Option.bind_some, n, ih i hr]
      rfl

theorem arrayItem_ring {p : Nat} {cs : List Nat} (hr : Ring h p cs) (i : Nat) : arrayItem h p i = some cs[i]? := by
  obtain ⟨-, ⟨par, ep, hc⟩, run⟩ := hr
  rw [arrayItem, item_eq ep, Option.bind_some, hc, head?_headOr]
  exact nth_run i run

theorem Relinked.trans {p : Nat} {A : List Nat} {h1 h2 : H V} (x : Relinked p A h h1) (y : Relinked p A h1 h2) : Relinked p A h h2 := by
  refine ⟨y.1.trans x.1, fun a u v => (y.2.1 a u v).trans (x.2.1 a u v), fun a it e => ?_⟩
  obtain ⟨n, q, c, e1, f1⟩ := x.2.2 a it e
  obtain ⟨n', q', c', e2, f2⟩ := y.2.2 a _ e1
  exact ⟨n', q', c', e2, fun hp => (f2 hp).trans (f1 hp)⟩

theorem Relinked.mono {p : Nat} {A B : List Nat} (x : Relinked p A h h') (hs : ∀ a ∈ A, a ∈ B) : Relinked p B h h' :=
  ⟨x.1, fun a u v => x.2.1 a u fun hx => v (hs a hx), x.2.2⟩

/-! ### Deleting what was replaced -/

theorem seg_nil {p q : Option Nat} {S : List Nat} (hs : Seg h p [] S q) : S = [] := by cases hs; rfl

theorem own_alone {x : Nat} {nm : Option (List UInt8)} {j : Verif.CJson.J V} {S : List Nat} {q : Option Nat} (hs : Seg h (some x) [(nm, j)] S q) {it' : Item V}
    (e' : h'.cells x = some (.item it')) (hn : it'.next = none) (hk : ∀ it, h.cells x = some (.item it) → it'.str = it.str ∧ it'.vstr = it.vstr ∧ it'.child = it.child)
    (hc : ∀ b ∈ S, b ≠ x → h'.cells b = h.cells b) (nd : S.Nodup) : Own h' (some x) S := by
  cases hs with
  | @plain _ it _ _ Sn Sv _ _ _ a1 a2 a3 a4 a5 =>
    obtain rfl := seg_nil a5
    obtain ⟨k1, k2, k3⟩ := hk it a1
    rw [List.nodup_cons] at nd
    have hc' : ∀ b ∈ Sn ++ Sv, h'.cells b = h.cells b := fun b hb => hc b (by simp at hb ⊢; simp [hb]) fun e => nd.1 (by simp at hb ⊢; simp [← e, hb])
    have := Own.cons (Sc := []) (S := []) e' (by rw [k1]; exact (a2.congr fun b hb => hc' b (by simp [hb])).str)
      (by rw [k2]; exact (a3.congr (h' := h') (fun b hb => hc' b (by simp [hb])) rfl rfl).str) (by rw [k3, a4]; exact .nil) (by rw [hn]; exact .nil)
    simpa using this
  | @arr _ it _ _ Sn Sc _ _ _ a1 a2 a3 a4 a5 a6 =>
    obtain rfl := seg_nil a6
    obtain ⟨k1, k2, k3⟩ := hk it a1
    rw [List.nodup_cons] at nd
    have hc' : ∀ b ∈ Sn ++ Sc, h'.cells b = h.cells b := fun b hb => hc b (by simp at hb ⊢; simp [hb]) fun e => nd.1 (by simp at hb ⊢; simp [← e, hb])
    have h1 := (a5.congr (h' := h') fun b hb => hc' b (by simp [hb])).own .nil
    have := Own.cons (Sv := []) (S := []) e' (by rw [k1]; exact (a2.congr fun b hb => hc' b (by simp [hb])).str) (by rw [k2, a4]; rfl) (by rw [k3]; exact h1) (by rw [hn]; exact .nil)
    simpa using this
  | @obj _ it _ _ Sn Sc _ _ _ a1 a2 a3 a4 a5 a6 =>
    obtain rfl := seg_nil a6
    obtain ⟨k1, k2, k3⟩ := hk it a1
    rw [List.nodup_cons] at nd
    have hc' : ∀ b ∈ Sn ++ Sc, h'.cells b = h.cells b := fun b hb => hc b (by simp at hb ⊢; simp [hb]) fun e => nd.1 (by simp at hb ⊢; simp [← e, hb])
    have h1 := (a5.congr (h' := h') fun b hb => hc' b (by simp [hb])).own .nil
    have := Own.cons (Sv := []) (S := []) e' (by rw [k1]; exact (a2.congr fun b hb => hc' b (by simp [hb])).str) (by rw [k2, a4]; rfl) (by rw [k3]; exact h1) (by rw [hn]; exact .nil)
    simpa using this

theorem replace_ring {p x a : Nat} {l r : List Nat} {it : Item V} {nm : Option (List UInt8)} {j : Verif.CJson.J V} {S : List Nat} {q : Option Nat} (hr : Ring h p (l ++ x :: r))
    (ha : h.cells a = some (.item it)) (hap : a ∉ p :: (l ++ x :: r)) (hs : Seg h (some x) [(nm, j)] S q) (nd : S.Nodup) (hS : ∀ b ∈ S, b ≠ x → b ∉ a :: p :: (l ++ r)) (hf : Fresh h) :
    ∃ h1 h', replace h p x a = some (true, h') ∧ Ring h' p (l ++ a :: r) ∧ Relinked p (a :: (l ++ x :: r)) h h1 ∧ h'.used = h.used ∧ ∀ b, h'.cells b = if b ∈ S then none else h1.cells b := by
  obtain ⟨h1, e1, R1, L1, itx, ex, nx, -⟩ := replaceLinks_ring hr ha hap
  have hax : a ≠ x := fun e => hap (by simp [e])
  obtain ⟨px, pl, pr, xl, xr, -, -, -, -⟩ := nd_facts hr.1
  have hc : ∀ b ∈ S, b ≠ x → h1.cells b = h.cells b := by
    intro b hb hbx
    have := hS b hb hbx
    simp only [List.mem_cons, List.mem_append, not_or] at this
    exact L1.2.1 b this.2.1 (by simp [this, hbx])
  have ho : Own h1 (some x) S := own_alone hs ex nx (by
    intro it0 e0
    obtain ⟨n, q, c, e2, f2⟩ := L1.2.2 x it0 e0
    rw [ex] at e2
    cases e2
    exact ⟨rfl, rfl, f2 (Ne.symm px)⟩) hc nd
  have hf1 : Fresh h1 := by
    intro b hb
    rw [L1.1] at hb
    have := hf b hb
    by_cases hbp : b ≠ p ∧ b ∉ a :: (l ++ x :: r)
    · rw [L1.2.1 b hbp.1 hbp.2]; exact this
    · exfalso
      have hlive : (h.cells b).isSome = true := by
        by_cases hb1 : b = p
        · obtain ⟨-, ⟨par, ep, -⟩, -⟩ := hr
          rw [hb1, ep]; rfl
        · by_cases hb2 : b = a
          · rw [hb2, ha]; rfl
          · have hb3 : b ∈ l ++ x :: r := by
              by_contra hc3
              exact hbp ⟨hb1, by simp only [List.mem_cons, not_or]; exact ⟨hb2, hc3⟩⟩
            obtain ⟨-, -, run⟩ := hr
            have : ∀ {cs : List Nat} {pv nx : Option Nat}, Run h pv cs nx → b ∈ cs → (h.cells b).isSome = true := by
              intro cs
              induction cs with
              | nil => intro _ _ _ hx; cases hx
              | cons c cs ih =>
                rintro pv nx ⟨⟨it, e, -, -⟩, hr⟩ hx
                rcases List.mem_cons.mp hx with rfl | hx
                · rw [e]; rfl
                · exact ih hr hx
            exact this run hb3
      rw [this] at hlive
      cases hlive
  obtain ⟨h', e', G⟩ := delete_own ho h1.used h1 nd (fun _ _ => rfl) (nodup_length nd fun b hb => lt_used hf1 (ho.some_of_mem b hb))
  refine ⟨h1, h', ?_, ?_, L1, G.1.trans L1.1, G.2⟩
  · rw [replace, if_neg hax, e1, Option.bind_some, e']; rfl
  · have hk : ∀ b ∈ p :: (l ++ a :: r), h'.cells b = h1.cells b := by
      intro b hb
      rw [G.2, if_neg]
      intro hbS
      by_cases hbx : b = x
      · subst hbx
        simp only [List.mem_cons, List.mem_append] at hb
        rcases hb with hb | hb | hb | hb
        · exact px hb.symm
        · exact xl hb
        · exact hax hb.symm
        · exact xr hb
      · refine hS b hbS hbx ?_
        simp only [List.mem_cons, List.mem_append] at hb ⊢
        rcases hb with hb | hb | hb | hb <;> simp [hb]
    obtain ⟨nd1, ⟨par, ep, hc1⟩, run1⟩ := R1
    exact ⟨nd1, ⟨par, by rw [hk p (by simp)]; exact ep, hc1⟩, run1.congr fun b hb => hk b (List.mem_cons_of_mem p hb)⟩

end Verif.CJsonMem
