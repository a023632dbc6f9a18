import Verif.Proofs.CJsonDupRing
/-
Helper lemmas for C122: the links in a document that was read.
-/
namespace Verif.CJsonMem
open Verif.CJson (scan decode emit rd skipWs isAt)

variable {V : Type} {h h' h0 h1 : H V} {ok : Nat → Bool}

theorem set_self (h : H V) (a : Nat) (c : Option (Cell V)) : (h.set a c).cells a = c := if_pos rfl

theorem Run.links {l : List Nat} : ∀ {pv nx : Option Nat}, Run h pv l nx →
    (∀ a ∈ l, ∀ it, h.cells a = some (.item it) → ∃ it', h'.cells a = some (.item it') ∧ it'.next = it.next ∧ it'.prev = it.prev) → Run h' pv l nx := by
  induction l with
  | nil => intro _ _ _ _; trivial
  | cons a l ih =>
    rintro pv nx ⟨⟨it, e, a1, a2⟩, hr⟩ hc
    obtain ⟨it', e', n', p'⟩ := hc a (by simp) it e
    exact ⟨⟨it', e', p'.trans a1, n'.trans a2⟩, ih hr fun b hb => hc b (by simp [hb])⟩

/-- A value was put into the item `p`: the new items and `p` have their children in order. -/
structure Valued (h h' : H V) (p : Nat) : Prop where
  fresh : Fresh h'
  used : h.used ≤ h'.used
  old : ∀ a, a < h.used → a ≠ p → h'.cells a = h.cells a
  root : ∀ it, h.cells p = some (.item it) → ∃ it', h'.cells p = some (.item it') ∧ it'.next = it.next ∧ it'.prev = it.prev
  rings : ∀ a it, a = p ∨ h.used ≤ a → h'.cells a = some (.item it) → ∃ ds, Ring h' a ds ∧ ∀ d ∈ ds, h.used ≤ d

/-- The items `cs` of a list are linked; all new items have their children in order. -/
structure Chain (h0 h : H V) (cs : List Nat) : Prop where
  fresh : Fresh h
  used : h0.used ≤ h.used
  old : ∀ a, a < h0.used → h.cells a = h0.cells a
  run : ∃ pv, Run h pv cs none
  nodup : cs.Nodup
  mem : ∀ c ∈ cs, h0.used ≤ c
  rings : ∀ a it, h0.used ≤ a → h.cells a = some (.item it) → ∃ ds, Ring h a ds ∧ ∀ d ∈ ds, h0.used ≤ d ∧ d ∉ cs

theorem Chain.nil (hf : Fresh h) : Chain h h [] :=
  ⟨hf, Nat.le_refl _, fun _ _ => rfl, ⟨none, trivial⟩, by simp, by simp, fun a it ha e => by rw [hf a ha] at e; cases e⟩

/-- A write to one item that keeps its links. -/
theorem valued_upd {p : Nat} {it : Item V} {f : Item V → Item V} (hf : Fresh h) (e0 : h.cells p = some (.item it)) (hc : (f it).child = none) (hn : (f it).next = it.next) (hp : (f it).prev = it.prev)
    (e : upd h p f = some h') : Valued h h' p := by
  rw [upd_eq e0] at e
  cases e
  have hpl := lt_of_cell hf e0
  refine ⟨fun a ha => ?_, Nat.le_refl _, fun a _ hq => by rw [set_cells, if_neg hq], fun it' e' => ?_, fun a ita ha e => ?_⟩
  · have : h.used ≤ a := ha
    rw [set_cells, if_neg (by omega)]; exact hf a ha
  · rw [e0] at e'; cases e'
    exact ⟨f it, by simp [set_cells], hn, hp⟩
  · by_cases hq : a = p
    · subst hq
      exact ⟨[], ⟨by simp, ⟨f it, by simp [set_cells], hc⟩, trivial⟩, by simp⟩
    · rw [set_cells, if_neg hq, hf a (by rcases ha with ha | ha; exact (hq ha).elim; exact ha)] at e
      cases e

theorem pstring_valued {buf : List UInt8} {p i j : Nat} {it : Item V} (hf : Fresh h) (e0 : h.cells p = some (.item it)) (hc : it.child = none) (e : pstring ok buf h p i = some (some j, h')) :
    Valued h h' p ∧ ∃ it', h'.cells p = some (.item it') ∧ it'.child = none ∧ it'.next = it.next := by
  have hpl := lt_of_cell hf e0
  unfold pstring at e
  split at e
  · cases e
  · split at e
    · cases e
    · split at e
      · cases e
      · cases e
      · split at e
        · cases e
        · next a h1 ha =>
          have ha' : a = h.used ∧ h1 = { used := h.used + 1, cells := fun b => if b = h.used then some (.bytes []) else h.cells b } := by
            unfold alloc at ha
            split at ha <;> cases ha
            exact ⟨rfl, rfl⟩
          obtain ⟨rfl, rfl⟩ := ha'
          split at e
          · obtain ⟨x, -, e⟩ := Option.map_eq_some_iff.mp e
            cases e
          · cases e
          · split at e
            · cases e
            · next out _ _ _ _ =>
              obtain ⟨h2, e2, e⟩ := Option.map_eq_some_iff.mp e
              cases e
              have hpu : p ≠ h.used := by omega
              rw [upd_eq (it := it) (by simp [set_cells, hpu, e0])] at e2
              cases e2
              refine ⟨⟨fun a ha => ?_, Nat.le_succ _, fun a h1 h2 => ?_, fun it' e' => ?_, fun a ita ha e => ?_⟩, ⟨_, set_self _ _ _, hc, rfl⟩⟩
              · have hu : h.used + 1 ≤ a := ha
                rw [set_cells, if_neg (by omega), set_cells, if_neg (by omega)]
                show (if a = h.used then _ else _) = none
                rw [if_neg (by omega)]
                exact hf a (by omega)
              · rw [set_cells, if_neg h2, set_cells, if_neg (by omega)]
                exact if_neg (by omega)
              · rw [e0] at e'; cases e'
                exact ⟨_, set_self _ _ _, rfl, rfl⟩
              · by_cases hq : a = p
                · subst hq
                  exact ⟨[], ⟨by simp, ⟨_, set_self _ _ _, hc⟩, trivial⟩, by simp⟩
                · have ha : h.used ≤ a := by rcases ha with ha | ha; exact (hq ha).elim; exact ha
                  rw [set_cells, if_neg hq, set_cells] at e
                  by_cases hau : a = h.used
                  · rw [if_pos hau] at e; cases e
                  · rw [if_neg hau] at e
                    have e : (if a = h.used then some (.bytes []) else h.cells a) = some (.item ita) := e
                    rw [if_neg hau, hf a ha] at e
                    cases e

/-- A new item at the end of the list. -/
theorem Chain.link {cs : List Nat} {hd hd' : Option (Nat × Nat)} {a : Nat} {r : Nat × Nat} {h2 : H V} (g : Chain h0 h cs)
    (hh : match hd with | none => cs = [] | some (f, cur) => cs.head? = some f ∧ cs.getLast? = some cur) (hn : newItem ok h = (some a, h1)) (e : link h1 hd a = some (r, h2)) :
    Chain h0 h2 (cs ++ [a]) ∧ (cs ++ [a]).head? = some r.1 ∧ (cs ++ [a]).getLast? = some r.2 ∧ a ∈ cs ++ [a] ∧ ∃ it, h2.cells a = some (.item it) ∧ it.child = none := by
  have hn' : a = h.used ∧ h1 = { used := h.used + 1, cells := fun b => if b = h.used then some (.item ⟨.invalid, none, none, none, none, none⟩) else h.cells b } := by
    unfold newItem alloc at hn
    split at hn <;> cases hn
    exact ⟨rfl, rfl⟩
  obtain ⟨rfl, e1⟩ := hn'
  have f1 : Fresh h1 := by
    intro b hb
    rw [e1] at hb ⊢
    have hb : h.used + 1 ≤ b := hb
    show (if b = h.used then _ else _) = none
    rw [if_neg (by omega)]
    exact g.fresh b (by omega)
  have c1 : ∀ b, b ≠ h.used → h1.cells b = h.cells b := fun b hb => by rw [e1]; exact if_neg hb
  have cu : h1.cells h.used = some (.item ⟨.invalid, none, none, none, none, none⟩) := by rw [e1]; exact if_pos rfl
  have u1 : h1.used = h.used + 1 := by rw [e1]
  obtain ⟨pv, run⟩ := g.run
  have hcs : ∀ x ∈ cs, x < h.used := fun x hx => by obtain ⟨it, ex⟩ := run.live x hx; exact lt_of_cell g.fresh ex
  have hac : h.used ∉ cs := fun hx => by have := hcs _ hx; omega
  have run1 : Run h1 pv cs none := run.congr fun x hx => c1 x (by have := hcs x hx; omega)
  have nd : (cs ++ [h.used]).Nodup := by
    rw [List.nodup_append']
    exact ⟨g.nodup, by simp, fun x hx hx' => by simp only [List.mem_singleton] at hx'; subst hx'; exact hac hx⟩
  have mem : ∀ x ∈ cs ++ [h.used], h0.used ≤ x := by
    intro x hx
    rcases List.mem_append.mp hx with hx | hx
    · exact g.mem x hx
    · simp only [List.mem_singleton] at hx; have := g.used; omega
  have rings : (∀ b, b ∉ cs ++ [h.used] → h2.cells b = h1.cells b) → (∀ b it, h1.cells b = some (.item it) → ∃ it', h2.cells b = some (.item it') ∧ it'.child = it.child) →
      (∀ b it, h2.cells b = some (.item it) → ∃ it', h1.cells b = some (.item it')) →
      ∀ b it, h0.used ≤ b → h2.cells b = some (.item it) → ∃ ds, Ring h2 b ds ∧ ∀ d ∈ ds, h0.used ≤ d ∧ d ∉ cs ++ [h.used] := by
    intro k1 k2 k3 b it hb e
    obtain ⟨it1, e1⟩ := k3 b it e
    by_cases hbu : b = h.used
    · subst hbu
      obtain ⟨it', x1, x2⟩ := k2 _ _ cu
      exact ⟨[], ⟨by simp, ⟨it', x1, x2⟩, trivial⟩, by simp⟩
    · rw [c1 b hbu] at e1
      obtain ⟨ds, R, hd⟩ := g.rings b it1 hb e1
      have hdl : ∀ d ∈ ds, d < h.used := fun d hd' => by obtain ⟨itd, ed⟩ := R.live d (List.mem_cons_of_mem b hd'); exact lt_of_cell g.fresh ed
      have hx : ∀ d ∈ ds, d ∉ cs ++ [h.used] := fun d hd' hx => by
        rcases List.mem_append.mp hx with hx | hx
        · exact (hd d hd').2 hx
        · simp only [List.mem_singleton] at hx; have := hdl d hd'; omega
      refine ⟨ds, R.links (fun d hd' => ?_) (fun it' e' => k2 b it' (by rw [c1 b hbu]; exact e')), fun d hd' => ⟨(hd d hd').1, hx d hd'⟩⟩
      rw [k1 d (hx d hd'), c1 d (by have := hdl d hd'; omega)]
  cases hd with
  | none =>
    have hh : cs = [] := hh
    subst hh
    unfold CJsonMem.link at e
    cases e
    refine ⟨⟨f1, by have := g.used; omega, fun a ha => ?_, ⟨none, ⟨⟨_, cu, rfl, rfl⟩, trivial⟩⟩, nd, mem, rings (fun _ _ => rfl) (fun b it e => ⟨it, e, rfl⟩) fun b it e => ⟨it, e⟩⟩, rfl, rfl, by simp,
      ⟨_, cu, rfl⟩⟩
    have := g.used
    rw [c1 a (by omega)]
    exact g.old a ha
  | some fc =>
    obtain ⟨f, cur⟩ := fc
    obtain ⟨hh1, hh2⟩ : cs.head? = some f ∧ cs.getLast? = some cur := hh
    unfold CJsonMem.link at e
    dsimp only at e
    rcases List.eq_nil_or_concat cs with rfl | ⟨l, m, rfl⟩
    · cases hh1
    · rw [List.concat_eq_append] at *
      rw [List.getLast?_concat] at hh2
      cases hh2
      have hm : cur < h.used := hcs cur (by simp)
      have hmc : cur ≠ h.used := by omega
      have hml : cur ∉ l := fun hx => (List.nodup_append'.mp g.nodup).2.2 hx (by simp)
      rw [run_append] at run1
      obtain ⟨runl, ⟨itm, em, bm, nm⟩, -⟩ := run1
      rw [upd_eq em, Option.bind_some, upd_eq (it := ⟨.invalid, none, none, none, none, none⟩) (by simp [set_cells, Ne.symm hmc, cu])] at e
      cases e
      refine ⟨⟨fun a ha => ?_, by have := g.used; show h0.used ≤ h1.used; omega, fun a ha => ?_, ⟨pv, ?_⟩, nd, mem, rings (fun b hx => ?_) (fun b it e => ?_) (fun b it e => ?_)⟩, ?_, ?_, by simp,
        ⟨_, set_self _ _ _, rfl⟩⟩
      · have hu : h1.used ≤ a := ha
        rw [set_cells, if_neg (by omega), set_cells, if_neg (by omega)]
        exact f1 a ha
      · have := g.used; have := g.mem cur (by simp)
        rw [set_cells, if_neg (by omega), set_cells, if_neg (by omega), c1 a (by omega)]
        exact g.old a ha
      · rw [run_append, run_append]
        refine ⟨⟨runl.congr fun b hb => ?_, ⟨⟨{ itm with next := some h.used }, by simp [set_cells, hmc], bm, rfl⟩, trivial⟩⟩, ⟨⟨_, set_self _ _ _, ?_, rfl⟩, trivial⟩⟩
        · have h1 : b ≠ cur := fun e => hml (e ▸ hb)
          have h2 : b ≠ h.used := fun e => hac (by simp [← e, hb])
          simp [set_cells, h1, h2]
        · rw [lastOr_concat]
      · simp only [List.mem_append, List.mem_singleton, not_or] at hx
        simp [set_cells, hx]
      · rw [set_cells, set_cells]
        by_cases hbc : b = h.used
        · subst hbc
          rw [cu] at e; cases e
          exact ⟨_, if_pos rfl, rfl⟩
        · by_cases hbm : b = cur
          · subst hbm
            rw [em] at e; cases e
            exact ⟨{ itm with next := some h.used }, by simp [hbc], rfl⟩
          · exact ⟨it, by simp [hbc, hbm, e], rfl⟩
      · rw [set_cells, set_cells] at e
        by_cases hbc : b = h.used
        · subst hbc; exact ⟨_, cu⟩
        · by_cases hbm : b = cur
          · subst hbm; exact ⟨itm, em⟩
          · simp only [if_neg hbc, if_neg hbm] at e; exact ⟨it, e⟩
      · dsimp only
        rw [← hh1]; cases l <;> rfl
      · rw [List.getLast?_concat]

theorem Chain.valued {cs : List Nat} {a : Nat} (g : Chain h0 h cs) (ha : a ∈ cs) (w : Valued h h' a) : Chain h0 h' cs := by
  obtain ⟨pv, run⟩ := g.run
  have hcs : ∀ x ∈ cs, x < h.used := fun x hx => by obtain ⟨it, ex⟩ := run.live x hx; exact lt_of_cell g.fresh ex
  refine ⟨w.fresh, g.used.trans w.used, fun b hb => ?_, ⟨pv, run.links fun b hb it e => ?_⟩, g.nodup, g.mem, fun b it hb e => ?_⟩
  · have := g.used; have := g.mem a ha
    rw [w.old b (by omega) (by omega)]
    exact g.old b hb
  · by_cases hba : b = a
    · subst hba; exact w.root it e
    · exact ⟨it, by rw [w.old b (hcs b hb) hba]; exact e, rfl, rfl⟩
  · by_cases hc : b = a ∨ h.used ≤ b
    · obtain ⟨ds, R, hd⟩ := w.rings b it hc e
      exact ⟨ds, R, fun d hd' => ⟨by have := hd d hd'; have := g.used; omega, fun hx => by have := hd d hd'; have := hcs d hx; omega⟩⟩
    · simp only [not_or, Nat.not_le] at hc
      rw [w.old b hc.2 hc.1] at e
      obtain ⟨ds, R, hd⟩ := g.rings b it hb e
      refine ⟨ds, R.congr fun d hd' => ?_, hd⟩
      obtain ⟨itd, ed⟩ := R.live d hd'
      refine w.old d (lt_of_cell g.fresh ed) ?_
      rcases List.mem_cons.mp hd' with rfl | hd'
      · exact hc.1
      · rintro rfl; exact (hd d hd').2 ha

/-- The end of an array or object. -/
theorem Chain.finish {cs : List Nat} {p i j : Nat} {ty : Ty V} {hd : Option (Nat × Nat)} {it : Item V} (g : Chain h0 h cs) (hf0 : Fresh h0) (e0 : h0.cells p = some (.item it))
    (hh : match hd with | none => cs = [] | some (f, cur) => cs.head? = some f ∧ cs.getLast? = some cur) (e : finish h p ty hd i = some (some j, h')) : Valued h0 h' p := by
  have hpl := lt_of_cell hf0 e0
  have hgu := g.used
  have ep : h.cells p = some (.item it) := by rw [g.old p hpl]; exact e0
  obtain ⟨pv, run⟩ := g.run
  unfold CJsonMem.finish at e
  cases hd with
  | none =>
    have hh : cs = [] := hh
    subst hh
    dsimp only at e
    rw [upd_eq ep] at e
    cases e
    refine ⟨fun a ha => ?_, hgu, fun a h1 h2 => by rw [set_cells, if_neg h2]; exact g.old a h1, fun it' e' => ?_, fun a ita ha e => ?_⟩
    · have hu : h.used ≤ a := ha
      rw [set_cells, if_neg (by omega)]; exact g.fresh a ha
    · rw [e0] at e'; cases e'
      exact ⟨_, set_self _ _ _, rfl, rfl⟩
    · by_cases hq : a = p
      · subst hq
        exact ⟨[], ⟨by simp, ⟨_, set_self _ _ _, rfl⟩, trivial⟩, by simp⟩
      · have ha : h0.used ≤ a := by rcases ha with ha | ha; exact (hq ha).elim; exact ha
        rw [set_cells, if_neg hq] at e
        obtain ⟨ds, R, hd⟩ := g.rings a ita ha e
        refine ⟨ds, R.congr fun d hd' => ?_, fun d hd' => (hd d hd').1⟩
        rw [set_cells, if_neg]
        rcases List.mem_cons.mp hd' with rfl | hd'
        · exact hq
        · have := (hd d hd').1; omega
  | some fc =>
    obtain ⟨f, cur⟩ := fc
    obtain ⟨hh1, hh2⟩ : cs.head? = some f ∧ cs.getLast? = some cur := hh
    cases cs with
    | nil => cases hh1
    | cons f' l =>
      cases hh1
      obtain ⟨⟨itf, ef, bf, nf⟩, runl⟩ := run
      have hfn : h0.used ≤ f := g.mem f (by simp)
      have hfl := lt_of_cell g.fresh ef
      have hpf : p ≠ f := by omega
      dsimp only at e
      rw [upd_eq ef, Option.bind_some, upd_eq (it := it) (by simp [set_cells, hpf, ep])] at e
      cases e
      have hfl' := (List.nodup_cons.mp g.nodup).1
      refine ⟨fun a ha => ?_, hgu, fun a h1 h2 => by rw [set_cells, if_neg h2, set_cells, if_neg (by omega)]; exact g.old a h1, fun it' e' => ?_, fun a ita ha e => ?_⟩
      · have hu : h.used ≤ a := ha
        rw [set_cells, if_neg (by omega), set_cells, if_neg (by omega)]; exact g.fresh a ha
      · rw [e0] at e'; cases e'
        exact ⟨_, set_self _ _ _, rfl, rfl⟩
      · by_cases hq : a = p
        · subst hq
          refine ⟨f :: l, ⟨List.nodup_cons.mpr ⟨fun hx => by have := g.mem _ hx; omega, g.nodup⟩, ⟨_, set_self _ _ _, rfl⟩, ?_⟩, g.mem⟩
          refine ⟨⟨{ itf with prev := some cur }, by simp [set_cells, Ne.symm hpf], hh2.symm, nf⟩, runl.congr fun b hb => ?_⟩
          have := g.mem b (by simp [hb])
          rw [set_cells, if_neg (by omega), set_cells, if_neg (by rintro rfl; exact hfl' hb)]
        · have ha : h0.used ≤ a := by rcases ha with ha | ha; exact (hq ha).elim; exact ha
          obtain ⟨it1, e1⟩ : ∃ it1, h.cells a = some (.item it1) := by
            rw [set_cells, if_neg hq, set_cells] at e
            by_cases haf : a = f
            · subst haf; exact ⟨itf, ef⟩
            · rw [if_neg haf] at e; exact ⟨ita, e⟩
          obtain ⟨ds, R, hd⟩ := g.rings a it1 ha e1
          refine ⟨ds, R.links (fun d hd' => ?_) (fun it' e' => ?_), fun d hd' => (hd d hd').1⟩
          · have := (hd d hd').1
            rw [set_cells, if_neg (by omega), set_cells, if_neg]
            rintro rfl
            exact (hd d hd').2 (by simp)
          · rw [set_cells, if_neg hq, set_cells]
            by_cases haf : a = f
            · subst haf; rw [ef] at e'; cases e'; exact ⟨_, if_pos rfl, rfl⟩
            · exact ⟨it', by rw [if_neg haf]; exact e', rfl⟩

theorem drop_not {α : Type} {hd : Option Nat} {x : α} (e : (drop h hd : Option (Option α × H V)) = some (some x, h')) : False := by
  simp [drop] at e

/-- What is known of a function that reads a value. -/
def Reads (val : H V → Nat → Nat → Out V) : Prop :=
  ∀ h p i j h' it, Fresh h → h.cells p = some (.item it) → it.child = none → val h p i = some (some j, h') → Valued h h' p

theorem elems_chain {val : H V → Nat → Nat → Out V} {buf : List UInt8} (hv : Reads val) : ∀ (n : Nat) {h : H V} {i k : Nat} {cs : List Nat} {hd : Option (Nat × Nat)} {r : Nat × Nat}, Chain h0 h cs →
    (match hd with | none => cs = [] | some (f, cur) => cs.head? = some f ∧ cs.getLast? = some cur) → elems ok val buf n h i hd = some (some (k, r), h') →
    ∃ cs', Chain h0 h' cs' ∧ cs'.head? = some r.1 ∧ cs'.getLast? = some r.2 := by
  intro n
  induction n with
  | zero => intro h i k cs hd r _ _ e; cases e
  | succ n ih =>
    intro h i k cs hd r g hh e
    rw [elems] at e
    split at e
    · exact (drop_not e).elim
    · next a h1 hn =>
      obtain ⟨⟨hd2, h2⟩, e2, e⟩ := Option.bind_eq_some_iff.mp e
      obtain ⟨g2, x1, x2, x3, ita, x4, x5⟩ := g.link hh hn e2 (hd' := none)
      obtain ⟨⟨rv, h3⟩, e3, e⟩ := Option.bind_eq_some_iff.mp e
      cases rv with
      | none => exact (drop_not e).elim
      | some j =>
        have g3 := g2.valued x3 (hv _ _ _ _ _ _ g2.fresh x4 x5 e3)
        dsimp only at e
        split at e
        · exact ih g3 (hd := some hd2) ⟨x1, x2⟩ e
        · split at e
          · cases e; exact ⟨_, g3, x1, x2⟩
          · exact (drop_not e).elim

theorem members_chain {val : H V → Nat → Nat → Out V} {buf : List UInt8} (hv : Reads val) : ∀ (n : Nat) {h : H V} {i k : Nat} {cs : List Nat} {hd : Option (Nat × Nat)} {r : Nat × Nat}, Chain h0 h cs →
    (match hd with | none => cs = [] | some (f, cur) => cs.head? = some f ∧ cs.getLast? = some cur) → members ok val buf n h i hd = some (some (k, r), h') →
    ∃ cs', Chain h0 h' cs' ∧ cs'.head? = some r.1 ∧ cs'.getLast? = some r.2 := by
  intro n
  induction n with
  | zero => intro h i k cs hd r _ _ e; cases e
  | succ n ih =>
    intro h i k cs hd r g hh e
    rw [members] at e
    split at e
    · exact (drop_not e).elim
    · next a h1 hn =>
      obtain ⟨⟨hd2, h2⟩, e2, e⟩ := Option.bind_eq_some_iff.mp e
      obtain ⟨g2, x1, x2, x3, ita, x4, x5⟩ := g.link hh hn e2 (hd' := none)
      obtain ⟨⟨rs, h3⟩, e3, e⟩ := Option.bind_eq_some_iff.mp e
      cases rs with
      | none => exact (drop_not e).elim
      | some j =>
        dsimp only at e
        obtain ⟨w3, it3, y1, y2, y3⟩ := pstring_valued g2.fresh x4 x5 e3
        have g3 := g2.valued x3 w3
        obtain ⟨h4, e4, e⟩ := Option.bind_eq_some_iff.mp e
        have g4 := g3.valued x3 (valued_upd g3.fresh y1 (f := fun it => { it with str := it.vstr, vstr := none }) y2 rfl rfl e4)
        obtain ⟨it4, z1, z2⟩ : ∃ it4, h4.cells a = some (.item it4) ∧ it4.child = none := by
          rw [upd_eq y1] at e4
          cases e4
          exact ⟨_, set_self _ _ _, y2⟩
        split at e
        · obtain ⟨⟨rv, h5⟩, e5, e⟩ := Option.bind_eq_some_iff.mp e
          cases rv with
          | none => exact (drop_not e).elim
          | some j =>
            have g5 := g4.valued x3 (hv _ _ _ _ _ _ g4.fresh z1 z2 e5)
            dsimp only at e
            split at e
            · exact ih g5 (hd := some hd2) ⟨x1, x2⟩ e
            · split at e
              · cases e; exact ⟨_, g5, x1, x2⟩
              · exact (drop_not e).elim
        · exact (drop_not e).elim

theorem leaf_valued {p i j : Nat} {ty : Ty V} {it : Item V} (hf : Fresh h) (e0 : h.cells p = some (.item it)) (hc : it.child = none) (e : leaf h p ty i = some (some j, h')) : Valued h h' p := by
  obtain ⟨h1, e1, e⟩ := Option.map_eq_some_iff.mp e
  cases e
  exact valued_upd hf e0 (f := fun it => { it with ty := ty }) hc rfl rfl e1

theorem array_valued {val : H V → Nat → Nat → Out V} {buf : List UInt8} (hv : Reads val) : Reads (array ok val buf) := by
  intro h p i j h' it hf e0 hc e
  unfold array at e
  dsimp only at e
  split at e
  · exact (Chain.nil hf).finish hf e0 (hd := none) rfl e
  · split at e
    · cases e
    · obtain ⟨⟨r, h1⟩, e1, e⟩ := Option.bind_eq_some_iff.mp e
      cases r with
      | none => cases e
      | some kr =>
        obtain ⟨k, r⟩ := kr
        obtain ⟨cs, g, x1, x2⟩ := elems_chain hv _ (Chain.nil hf) (hd := none) rfl e1
        exact g.finish hf e0 (hd := some r) ⟨x1, x2⟩ e

theorem object_valued {val : H V → Nat → Nat → Out V} {buf : List UInt8} (hv : Reads val) : Reads (object ok val buf) := by
  intro h p i j h' it hf e0 hc e
  unfold object at e
  dsimp only at e
  split at e
  · exact (Chain.nil hf).finish hf e0 (hd := none) rfl e
  · split at e
    · cases e
    · obtain ⟨⟨r, h1⟩, e1, e⟩ := Option.bind_eq_some_iff.mp e
      cases r with
      | none => cases e
      | some kr =>
        obtain ⟨k, r⟩ := kr
        obtain ⟨cs, g, x1, x2⟩ := members_chain hv _ (Chain.nil hf) (hd := none) rfl e1
        exact g.finish hf e0 (hd := some r) ⟨x1, x2⟩ e

theorem value_valued (strtod : List UInt8 → Nat × V) (buf : List UInt8) : ∀ n, Reads (value ok strtod buf n) := by
  intro n
  induction n with
  | zero =>
    intro h p i j h' it hf e0 hc e
    unfold value at e
    split at e
    · exact leaf_valued hf e0 hc e
    split at e
    · exact leaf_valued hf e0 hc e
    split at e
    · exact leaf_valued hf e0 hc e
    split at e
    · cases e
    split at e
    · exact (pstring_valued hf e0 hc e).1
    split at e
    · split at e
      · exact leaf_valued hf e0 hc e
      · cases e
    split at e
    · cases e
    split at e <;> cases e
  | succ n ih =>
    intro h p i j h' it hf e0 hc e
    unfold value at e
    split at e
    · exact leaf_valued hf e0 hc e
    split at e
    · exact leaf_valued hf e0 hc e
    split at e
    · exact leaf_valued hf e0 hc e
    split at e
    · cases e
    split at e
    · exact (pstring_valued hf e0 hc e).1
    split at e
    · split at e
      · exact leaf_valued hf e0 hc e
      · cases e
    split at e
    · exact array_valued ih _ _ _ _ _ _ hf e0 hc e
    split at e
    · exact object_valued ih _ _ _ _ _ _ hf e0 hc e
    · cases e

theorem parse_rings {strtod : List UInt8 → Nat × V} {text : List UInt8} {p : Nat} (hf : Fresh h) (e : parse ok strtod text h = some (some p, h')) :
    ∀ a it, h.used ≤ a → h'.cells a = some (.item it) → ∃ ds, Ring h' a ds ∧ ∀ d ∈ ds, h.used ≤ d := by
  unfold parse parseLen at e
  split at e
  · cases e
  · split at e
    · cases e
    · next p' h1 hn =>
      obtain ⟨⟨r, h2⟩, e2, e⟩ := Option.bind_eq_some_iff.mp e
      have g := grown_new hf hn
      obtain ⟨it0, q1, q2, q3⟩ := g.root
      cases r with
      | none => exact (drop_not e).elim
      | some j =>
        cases e
        have w := value_valued strtod _ 1000 _ _ _ _ _ _ g.fresh q1 q3 e2
        intro a it ha ea
        have hp : p = h.used ∧ h1.used = h.used + 1 := by
          unfold newItem alloc at hn
          split at hn <;> cases hn
          exact ⟨rfl, rfl⟩
        obtain ⟨ds, R, hd⟩ := w.rings a it (by rw [hp.1, hp.2]; omega) ea
        exact ⟨ds, R, fun d hd' => by have := hd d hd'; omega⟩

end Verif.CJsonMem
