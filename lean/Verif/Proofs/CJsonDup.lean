import Verif.Model.CJsonDup
import Verif.Spec.CJsonDup
import Verif.Proofs.CJsonMem
/-
Helper lemmas for C118: what lies in memory while a document is copied.
-/
namespace Verif.CJsonMem
open Verif.CJson

variable {V : Type} {h h' h0 h1 : H V} {ok : Nat → Bool}

theorem seen_arr (xs : List (J V)) : seen (.arr xs) = .arr (xs.map seen) := by
  rw [seen]; simp

theorem seen_obj (xs : List (List UInt8 × J V)) : seen (.obj xs) = .obj (xs.map fun x => (cstr x.1, seen x.2)) := by
  rw [seen]
  congr 1
  exact List.attach_map_val (l := xs) (f := fun x => (cstr x.1, seen x.2))

/-! ### Pointers backwards do not matter -/

/-- The same block but for the pointer backwards. -/
def Like (c c' : Option (Cell V)) : Prop := c' = c ∨ ∃ it x, c = some (.item it) ∧ c' = some (.item { it with prev := x })

theorem Like.item {c c' : Option (Cell V)} {it : Item V} (hl : Like c c') (hc : c = some (.item it)) : ∃ x, c' = some (.item { it with prev := x }) := by
  rcases hl with rfl | ⟨it', x, e, e'⟩
  · exact ⟨it.prev, hc⟩
  · rw [hc] at e; cases e; exact ⟨x, e'⟩

theorem Like.bytes {c c' : Option (Cell V)} {s : List UInt8} (hl : Like c c') (hc : c = some (.bytes s)) : c' = some (.bytes s) := by
  rcases hl with rfl | ⟨it', x, e, e'⟩
  · exact hc
  · rw [hc] at e; cases e

theorem Name.like {p : Option Nat} {nm : Option (List UInt8)} {S : List Nat} (hn : Name h p nm S) (he : ∀ a ∈ S, Like (h.cells a) (h'.cells a)) : Name h' p nm S := by
  cases nm with
  | none => exact hn
  | some s => obtain ⟨a, rfl, e, rfl⟩ := hn; exact ⟨a, rfl, (he a (by simp)).bytes e, rfl⟩

theorem Plain.like {it it' : Item V} {j : J V} {S : List Nat} (hp : Plain h it j S) (he : ∀ a ∈ S, Like (h.cells a) (h'.cells a)) (e1 : it'.ty = it.ty) (e2 : it'.vstr = it.vstr) :
    Plain h' it' j S := by
  cases j with
  | null => simpa only [Plain, e1, e2] using hp
  | bool b => simpa only [Plain, e1, e2] using hp
  | num v => simpa only [Plain, e1, e2] using hp
  | str s =>
    obtain ⟨e0, a, e, e', rfl⟩ := hp
    exact ⟨e1.trans e0, a, e2.trans e, (he a (by simp)).bytes e', rfl⟩
  | arr => exact hp.elim
  | obj => exact hp.elim

theorem Seg.like {p q : Option Nat} {xs : List (Option (List UInt8) × J V)} {S : List Nat} (hs : Seg h p xs S q) : (∀ a ∈ S, Like (h.cells a) (h'.cells a)) → Seg h' p xs S q := by
  induction hs with
  | nil p => intro _; exact .nil p
  | @plain p it nm j Sn Sv rest S q a1 a2 a3 a4 a5 ih =>
    intro he
    obtain ⟨x, e⟩ := (he p (by simp)).item a1
    exact .plain e (a2.like fun a ha => he a (by simp [ha])) (a3.like (fun a ha => he a (by simp [ha])) rfl rfl) a4 (ih fun a ha => he a (by simp [ha]))
  | @arr p it nm xs Sn Sc rest S q a1 a2 a3 a4 a5 a6 ih1 ih2 =>
    intro he
    obtain ⟨x, e⟩ := (he p (by simp)).item a1
    exact .arr e (a2.like fun a ha => he a (by simp [ha])) a3 a4 (ih1 fun a ha => he a (by simp [ha])) (ih2 fun a ha => he a (by simp [ha]))
  | @obj p it nm xs Sn Sc rest S q a1 a2 a3 a4 a5 a6 ih1 ih2 =>
    intro he
    obtain ⟨x, e⟩ := (he p (by simp)).item a1
    exact .obj e (a2.like fun a ha => he a (by simp [ha])) a3 a4 (ih1 fun a ha => he a (by simp [ha])) (ih2 fun a ha => he a (by simp [ha]))

theorem Seg.cells_lt {p q : Option Nat} {xs : List (Option (List UInt8) × J V)} {S : List Nat} (hs : Seg h p xs S q) (hf : Fresh h) : ∀ a ∈ S, a < h.used := by
  induction hs with
  | nil p => intro a ha; cases ha
  | plain a1 a2 a3 a4 a5 ih =>
    intro a ha
    simp only [List.mem_cons, List.mem_append] at ha
    rcases ha with rfl | (ha | ha) | ha
    · exact lt_used hf (by simp [a1])
    · exact lt_used hf (a2.str.some_of_mem ha)
    · exact lt_used hf (a3.str.some_of_mem ha)
    · exact ih a ha
  | arr a1 a2 a3 a4 a5 a6 ih1 ih2 =>
    intro a ha
    simp only [List.mem_cons, List.mem_append] at ha
    rcases ha with rfl | (ha | ha) | ha
    · exact lt_used hf (by simp [a1])
    · exact lt_used hf (a2.str.some_of_mem ha)
    · exact ih1 a ha
    · exact ih2 a ha
  | obj a1 a2 a3 a4 a5 a6 ih1 ih2 =>
    intro a ha
    simp only [List.mem_cons, List.mem_append] at ha
    rcases ha with rfl | (ha | ha) | ha
    · exact lt_used hf (by simp [a1])
    · exact lt_used hf (a2.str.some_of_mem ha)
    · exact ih1 a ha
    · exact ih2 a ha

/-! ### The copy of one item -/

/-- The item `q` is new, and so are the blocks `S` that belong to it; nothing else is different from `h0`, and every allocation succeeded. -/
structure Part (ok : Nat → Bool) (h0 h : H V) (q : Nat) (it : Item V) (S : List Nat) : Prop where
  at_ : h.cells q = some (.item it)
  next : it.next = none
  nodup : (q :: S).Nodup
  new : ∀ a ∈ q :: S, h0.used ≤ a
  lt : ∀ a ∈ q :: S, a < h.used
  rest : ∀ a, a ∉ q :: S → h.cells a = h0.cells a
  used : h0.used ≤ h.used
  fresh : Fresh h
  all : AllOk ok h0 h

theorem Part.upd {q : Nat} {it : Item V} {S : List Nat} (hp : Part ok h0 h q it S) (f : Item V → Item V) (hf : (f it).next = none) :
    ∃ h', upd h q f = some h' ∧ Part ok h0 h' q (f it) S ∧ ∀ a, a ≠ q → h'.cells a = h.cells a := by
  refine ⟨h.set q (some (.item (f it))), by simp [CJsonMem.upd, hp.at_], ⟨by simp [H.set], hf, hp.nodup, hp.new, hp.lt, ?_, hp.used, ?_, hp.all⟩, ?_⟩
  · intro a ha
    have : a ≠ q := fun e => ha (by simp [e])
    simpa [H.set, this] using hp.rest a ha
  · intro a ha
    have hq := hp.lt q (by simp)
    have : a ≠ q := by simp only [H.set] at ha; omega
    simpa [H.set, this] using hp.fresh a ha
  · intro a ha; simp [H.set, ha]

/-- What was there before is still there. -/
theorem Part.old {q : Nat} {it : Item V} {S : List Nat} (hp : Part ok h0 h q it S) {a : Nat} (ha : a < h0.used) : h.cells a = h0.cells a :=
  hp.rest a fun hx => by have := hp.new a hx; omega

theorem Part.strdup {q : Nat} {it : Item V} {S : List Nat} (hp : Part ok h0 h q it S) {p : Option Nat} {nm : Option (List UInt8)} {T : List Nat} (hn : Name h p nm T) :
    (∃ h', strdup ok h p = some (false, none, h') ∧ h'.cells = h.cells ∧ h.used ≤ h'.used ∧ ¬ AllOk ok h0 h') ∨
    (∃ s T' h', strdup ok h p = some (true, s, h') ∧ Part ok h0 h' q it (S ++ T') ∧ Name h' s (nm.map cstr) T' ∧ (∀ a ∈ q :: S, h'.cells a = h.cells a)) := by
  cases nm with
  | none =>
    obtain ⟨rfl, rfl⟩ := hn
    exact .inr ⟨none, [], h, rfl, by simpa using hp, ⟨rfl, rfl⟩, fun _ _ => rfl⟩
  | some s =>
    obtain ⟨a, rfl, e, rfl⟩ := hn
    by_cases ho : ok h.used = true
    · have hl := hp.lt
      refine .inr ⟨some h.used, [h.used], _, by simp only [CJsonMem.strdup, e, alloc, ho, if_true]; rfl, ⟨?_, hp.next, ?_, ?_, ?_, ?_, ?_, ?_, ?_⟩, ⟨h.used, rfl, by simp [cstr], rfl⟩, ?_⟩
      · dsimp only; rw [if_neg (by have := hl q (by simp); omega)]; exact hp.at_
      · rw [← List.cons_append, List.nodup_append']
        refine ⟨hp.nodup, by simp, fun a ha hb => ?_⟩
        simp only [List.mem_singleton] at hb
        have := hl a ha; omega
      · intro a ha
        rw [← List.cons_append, List.mem_append] at ha
        rcases ha with ha | ha
        · exact hp.new a ha
        · simp only [List.mem_singleton] at ha; have := hp.used; omega
      · intro a ha
        rw [← List.cons_append, List.mem_append] at ha
        rcases ha with ha | ha
        · have := hl a ha; dsimp only; omega
        · simp only [List.mem_singleton] at ha; dsimp only; omega
      · intro a ha
        rw [← List.cons_append, List.mem_append, not_or] at ha
        dsimp only
        rw [if_neg (fun e => ha.2 (by simp [e]))]
        exact hp.rest a ha.1
      · have := hp.used; dsimp only; omega
      · intro a ha
        dsimp only at ha ⊢
        rw [if_neg (by omega)]
        exact hp.fresh a (by omega)
      · intro k h1 h2
        dsimp only at h2
        by_cases hk : k < h.used
        · exact hp.all k h1 hk
        · have : k = h.used := by omega
          rw [this]; exact ho
      · intro a ha
        have := hl a ha
        dsimp only
        rw [if_neg (by omega)]
    · refine .inl ⟨{ h with used := h.used + 1 }, by simp [CJsonMem.strdup, e, alloc, ho], rfl, by simp, fun hc => ho ?_⟩
      exact hc h.used hp.used (by simp)

/-- Giving up: the new item is deleted with all that belongs to it. -/
theorem Part.drop {q : Nat} {it : Item V} {S Sn Sv Sc : List Nat} (hp : Part ok h0 h q it S) (hf0 : Fresh h0) (hn : Str h it.str Sn) (hv : Str h it.vstr Sv) (hc : Own h it.child Sc)
    (hS : List.Perm S (Sn ++ Sv ++ Sc)) (hcells : h'.cells = h.cells) (hu : h.used ≤ h'.used) (hno : ¬ AllOk ok h0 h') :
    ∃ h2, (drop h' (some q) : Out V) = some (none, h2) ∧ Failed h0 h2 ∧ ¬ AllOk ok h0 h2 := by
  have own : Own h (some q) (q :: (Sn ++ Sv ++ Sc ++ [])) := Own.cons hp.at_ hn hv hc (hp.next ▸ Own.nil)
  rw [List.append_nil] at own
  have own' : Own h' (some q) (q :: (Sn ++ Sv ++ Sc)) := by
    obtain ⟨u, c⟩ := h'
    obtain ⟨u0, c0⟩ := h
    dsimp only at hcells
    subst hcells
    clear hno hu hp hS hn hv hc
    generalize hx : some q = x at own
    generalize hy : q :: (Sn ++ Sv ++ Sc) = y at own
    clear hx hy
    induction own with
    | nil => exact .nil
    | cons b1 b2 b3 _ _ i1 i2 =>
      refine .cons b1 ?_ ?_ i1 i2
      · revert b2; rename_i it _ _ _ _ _ _; cases it.str <;> exact id
      · revert b3; rename_i it _ _ _ _ _ _; cases it.vstr <;> exact id
  have hperm : List.Perm (q :: S) (q :: (Sn ++ Sv ++ Sc)) := hS.cons q
  obtain ⟨h2, e, F, hu2⟩ := drop_own (α := Nat) (h0 := h0) own' (hperm.nodup_iff.mp hp.nodup) hf0 (fun a ha => hp.new a (hperm.mem_iff.mpr ha))
    (fun a ha => by rw [hcells]; exact hp.rest a fun hx => ha (hperm.mem_iff.mp hx)) (hp.used.trans hu) (fun a ha => by rw [hcells]; exact hp.fresh a (by omega))
  refine ⟨h2, e, F, fun hc => hno fun k h1 h2 => hc k h1 (by omega)⟩

/-- Something is written to the blocks of the new item. -/
theorem Part.change {q : Nat} {it it2 : Item V} {S : List Nat} (hp : Part ok h0 h q it S) (h2 : H V) (hu : h2.used = h.used) (hq : h2.cells q = some (.item it2)) (hn : it2.next = none)
    (hr : ∀ a, a ∉ q :: S → h2.cells a = h.cells a) : Part ok h0 h2 q it2 S := by
  refine ⟨hq, hn, hp.nodup, hp.new, fun a ha => by rw [hu]; exact hp.lt a ha, fun a ha => (hr a ha).trans (hp.rest a ha), by rw [hu]; exact hp.used, fun a ha => ?_, fun k x y => hp.all k x (by omega)⟩
  rw [hu] at ha
  rw [hr a fun hx => by have := hp.lt a hx; omega]
  exact hp.fresh a ha

/-- Another new item is added. -/
theorem Part.add {q c : Nat} {it itc : Item V} {S T : List Nat} (hp : Part ok h0 h q it S) (hc : Part ok h h1 c itc T) : Part ok h0 h1 q it (S ++ (c :: T)) := by
  have hlt := hp.lt
  have hnew := hc.new
  refine ⟨?_, hp.next, ?_, ?_, ?_, ?_, hp.used.trans hc.used, hc.fresh, hp.all.trans hc.all⟩
  · rw [hc.old (hlt q (by simp))]; exact hp.at_
  · rw [← List.cons_append, List.nodup_append']
    exact ⟨hp.nodup, hc.nodup, fun a ha hb => by have := hlt a ha; have := hnew a hb; omega⟩
  · intro a ha
    rw [← List.cons_append, List.mem_append] at ha
    rcases ha with ha | ha
    · exact hp.new a ha
    · have := hnew a ha; have := hp.used; omega
  · intro a ha
    rw [← List.cons_append, List.mem_append] at ha
    rcases ha with ha | ha
    · have := hlt a ha; have := hc.used; omega
    · exact hc.lt a ha
  · intro a ha
    rw [← List.cons_append, List.mem_append, not_or] at ha
    rw [hc.rest a ha.2, hp.rest a ha.1]

/-! ### The children -/

/-- The children copied so far: `ys`; `last` is the last one. -/
def Kids (h : H V) (it : Item V) (last : Option Nat) (ys : List (Option (List UInt8) × J V)) (Sc : List Nat) : Prop :=
  match last with
  | none => ys = [] ∧ Sc = [] ∧ it.child = none
  | some cur => ∃ f xs nm j itc S1 Sn Sv, it.child = some f ∧ ys = xs ++ [(nm, j)] ∧ Seg h (some f) xs S1 (some cur) ∧ h.cells cur = some (.item itc) ∧ itc.next = none ∧
      Name h itc.str nm Sn ∧ Val h itc j Sv ∧ Sc = S1 ++ (cur :: (Sn ++ Sv))

theorem Kids.seg {it : Item V} {last : Option Nat} {ys : List (Option (List UInt8) × J V)} {Sc : List Nat} (hk : Kids h it last ys Sc) : Seg h it.child ys Sc none := by
  cases last with
  | none => obtain ⟨rfl, rfl, e⟩ := hk; rw [e]; exact .nil none
  | some cur =>
    obtain ⟨f, xs, nm, j, itc, S1, Sn, Sv, e, rfl, a1, a2, a3, a4, a5, rfl⟩ := hk
    rw [e]
    have := a1.append (a5.seg a2 a4)
    rwa [a3] at this

theorem Kids.own {it : Item V} {last : Option Nat} {ys : List (Option (List UInt8) × J V)} {Sc : List Nat} (hk : Kids h it last ys Sc) : Own h it.child Sc := by
  have := hk.seg.own .nil
  rwa [List.append_nil] at this

/-- The item `c` is new and holds the value `j` under the name `nm`. -/
def Copied (ok : Nat → Bool) (h h' : H V) (c : Nat) (nm : Option (List UInt8)) (j : J V) : Prop :=
  ∃ it S Sn Sv, Part ok h h' c it S ∧ List.Perm S (Sn ++ Sv) ∧ Name h' it.str nm Sn ∧ Val h' it j Sv

theorem Part.perm {q : Nat} {it : Item V} {S T : List Nat} (hp : Part ok h0 h q it S) (hS : List.Perm S T) : Part ok h0 h q it T := by
  have hm := hS.cons q
  exact ⟨hp.at_, hp.next, hm.nodup_iff.mp hp.nodup, fun a ha => hp.new a (hm.mem_iff.mpr ha), fun a ha => hp.lt a (hm.mem_iff.mpr ha),
    fun a ha => hp.rest a fun hx => ha (hm.mem_iff.mp hx), hp.used, hp.fresh, hp.all⟩

theorem Kids.hook {q c : Nat} {it : Item V} {last : Option Nat} {ys : List (Option (List UInt8) × J V)} {S Sc : List Nat} {nm : Option (List UInt8)} {j : J V}
    (hp : Part ok h0 h q it (S ++ Sc)) (hk : Kids h it last ys Sc) (hc : Copied ok h h1 c nm j) :
    ∃ h2 x Sc2, hook h1 q last c = some h2 ∧ Part ok h0 h2 q { it with child := x } (S ++ Sc2) ∧ Kids h2 { it with child := x } (some c) (ys ++ [(nm, j)]) Sc2 ∧
      (∀ a ∈ S, h2.cells a = h.cells a) := by
  obtain ⟨itc, T, Tn, Tv, pc, pT, nc, vc⟩ := hc
  have pc := pc.perm pT
  have P := hp.add pc
  have hlt := hp.lt
  have hnew := pc.new
  have hqc : q ≠ c := by have := hlt q (by simp); have := hnew c (by simp); omega
  have ncT : c ∉ Tn ++ Tv := (List.nodup_cons.mp pc.nodup).1
  have hqT : ∀ a ∈ Tn ++ Tv, a ≠ q := fun a ha e => by have := hnew a (by simp only [List.mem_cons]; exact .inr ha); have := hlt q (by simp); omega
  cases last with
  | none =>
    obtain ⟨rfl, rfl, hch⟩ := hk
    have hq1 : h1.cells q = some (.item it) := P.at_
    refine ⟨h1.set q (some (.item { it with child := some c })), some c, c :: (Tn ++ Tv), by simp [CJsonMem.hook, CJsonMem.upd, hq1], ?_, ?_, ?_⟩
    · refine Part.change (it := it) (h := h1) (by simpa using P) _ rfl (by simp [H.set]) hp.next fun a ha => ?_
      have : a ≠ q := fun e => ha (by simp [e])
      simp [H.set, this]
    · refine ⟨c, [], nm, j, itc, [], Tn, Tv, rfl, rfl, .nil _, by simp [H.set, hqc.symm, pc.at_], pc.next, ?_, ?_, rfl⟩
      · exact nc.congr fun a ha => by simp [H.set, hqT a (by simp [ha])]
      · exact vc.congr (fun a ha => by simp [H.set, hqT a (by simp [ha])]) rfl rfl rfl
    · intro a ha
      have hn := List.nodup_cons.mp hp.nodup
      have : a ≠ q := fun e => hn.1 (by simp [← e, ha])
      simp only [H.set, this, if_false]
      exact pc.old (hlt a (by simp [ha]))
  | some cur =>
    obtain ⟨f, xs, nm0, j0, it0, S1, Sn, Sv, hch, rfl, a1, a2, a3, a4, a5, rfl⟩ := hk
    have hcur : cur < h.used := hlt cur (by simp)
    have hcc : cur ≠ c := by have := hnew c (by simp); omega
    have hnd := List.nodup_cons.mp hp.nodup
    have hqcur : q ≠ cur := fun e => hnd.1 (by simp [← e])
    obtain ⟨nS, nSc, dS⟩ := List.nodup_append'.mp hnd.2
    obtain ⟨nS1, nS2, dS1⟩ := List.nodup_append'.mp nSc
    have nS2 := List.nodup_cons.mp nS2
    have o1 : h1.cells cur = some (.item it0) := by rw [pc.old hcur]; exact a2
    generalize hh : (h1.set cur (some (.item { it0 with next := some c }))).set c (some (.item { itc with prev := some cur })) = h2
    have c1 : h2.cells cur = some (.item { it0 with next := some c }) := by rw [← hh]; simp [H.set, hcc]
    have c2 : h2.cells c = some (.item { itc with prev := some cur }) := by rw [← hh]; simp [H.set]
    have c3 : ∀ a, a ≠ cur → a ≠ c → h2.cells a = h1.cells a := by intro a x y; rw [← hh]; simp [H.set, x, y]
    have c4 : ∀ a, a < h.used → a ≠ cur → h2.cells a = h.cells a := by
      intro a x y
      rw [c3 a y (by have := hnew c (by simp); omega), pc.old x]
    refine ⟨h2, some f, S1 ++ (cur :: (Sn ++ Sv)) ++ (c :: (Tn ++ Tv)), ?_, ?_, ?_, ?_⟩
    · simp only [CJsonMem.hook, CJsonMem.upd, o1, Option.bind_some]
      simp [H.set, hcc.symm, pc.at_] at hh ⊢
      exact hh
    · have he : ({ it with child := some f } : Item V) = it := by rw [← hch]
      rw [he, ← List.append_assoc]
      refine P.change h2 (by rw [← hh]; rfl) ?_ hp.next fun a ha => ?_
      · rw [c3 q hqcur hqc, P.at_]
      · simp only [List.mem_cons, List.mem_append, not_or] at ha
        refine c3 a ha.2.1.2.2.1 ha.2.2.1
    · refine ⟨f, xs ++ [(nm0, j0)], nm, j, { itc with prev := some cur }, S1 ++ (cur :: (Sn ++ Sv)), Tn, Tv, rfl, rfl, ?_, c2, pc.next, ?_, ?_, rfl⟩
      · refine (a1.congr fun a ha => c4 a (hlt a (by simp [ha])) fun e => dS1 ha (by simp [e])).append ?_
        exact Val.seg (it := { it0 with next := some c }) (a5.congr (fun a ha => c4 a (hlt a (by simp [ha])) fun e => nS2.1 (by simp [← e, ha])) rfl rfl rfl) c1
          (a4.congr fun a ha => c4 a (hlt a (by simp [ha])) fun e => nS2.1 (by simp [← e, ha]))
      · exact nc.congr fun a ha => c3 a (fun e => by have := hnew a (by simp [ha]); omega) fun e => ncT (by simp [← e, ha])
      · exact vc.congr (fun a ha => c3 a (fun e => by have := hnew a (by simp [ha]); omega) fun e => ncT (by simp [← e, ha])) rfl rfl rfl
    · intro a ha
      exact c4 a (hlt a (by simp [ha])) fun e => dS ha (by simp [e])

/-- What a name and a value become in the copy. -/
def both (x : Option (List UInt8) × J V) : Option (List UInt8) × J V := (x.1.map cstr, seen x.2)

/-- What the loop over the children gives, if it begins with the children `ys` copied and the children `xs` are left. -/
def LoopRes (ok : Nat → Bool) (h0 h : H V) (q : Nat) (it : Item V) (S : List Nat) (ys xs : List (Option (List UInt8) × J V)) (o : Option (Bool × Option Nat × H V)) : Prop :=
  (∃ l l' zs h' h2 x Sc, o = some (false, l, h') ∧ Part ok h0 h2 q { it with child := x } (S ++ Sc) ∧ Kids h2 { it with child := x } l' zs Sc ∧ (∀ a ∈ S, h2.cells a = h.cells a) ∧
    h'.cells = h2.cells ∧ h2.used ≤ h'.used ∧ ¬ AllOk ok h0 h') ∨
  (∃ l h' x Sc, o = some (true, l, h') ∧ Part ok h0 h' q { it with child := x } (S ++ Sc) ∧ Kids h' { it with child := x } l (ys ++ xs.map both) Sc ∧
    (∀ a ∈ S, h'.cells a = h.cells a))

/-- What copying one item gives. -/
def ItemRes (ok : Nat → Bool) (h : H V) (x : Option (List UInt8) × J V) (o : Out V) : Prop :=
  (∃ h', o = some (none, h') ∧ Failed h h' ∧ ¬ AllOk ok h h') ∨ (∃ q h', o = some (some q, h') ∧ Copied ok h h' q (both x).1 (both x).2)

theorem Kids.close {q : Nat} {it : Item V} {l : Option Nat} {ys : List (Option (List UInt8) × J V)} {S Sc : List Nat} (hp : Part ok h0 h q it (S ++ Sc)) (hk : Kids h it l ys Sc) :
    ∃ h', close h q l = some h' ∧ Part ok h0 h' q it (S ++ Sc) ∧ Seg h' it.child ys Sc none ∧ ∀ a ∈ S, h'.cells a = h.cells a := by
  have hs := hk.seg
  cases l with
  | none =>
    obtain ⟨rfl, rfl, e⟩ := hk
    exact ⟨h, by simp [CJsonMem.close, item, hp.at_, e], hp, hs, fun _ _ => rfl⟩
  | some cur =>
    obtain ⟨f, xs, nm, j, itc, S1, Sn, Sv, e, rfl, -, -, -, -, -, -⟩ := hk
    obtain ⟨itf, b1, b2⟩ : ∃ itf, h.cells f = some (.item itf) ∧ f ∈ Sc := by
      rw [e] at hs
      generalize hys : xs ++ [(nm, j)] = ys at hs
      cases hs with
      | plain b1 => exact ⟨_, b1, by simp⟩
      | arr b1 => exact ⟨_, b1, by simp⟩
      | obj b1 => exact ⟨_, b1, by simp⟩
    have hnd := List.nodup_cons.mp hp.nodup
    have hqf : q ≠ f := fun x => hnd.1 (by simp [x, b2])
    refine ⟨h.set f (some (.item { itf with prev := some cur })), by simp [CJsonMem.close, item, hp.at_, e, CJsonMem.upd, b1], ?_, ?_, ?_⟩
    · refine hp.change _ rfl (by simp [H.set, hqf, hp.at_]) hp.next fun a ha => ?_
      have : a ≠ f := fun x => ha (by simp [x, b2])
      simp [H.set, this]
    · refine hs.like fun a _ => ?_
      by_cases ha : a = f
      · subst ha; exact .inr ⟨itf, some cur, b1, by simp [H.set]⟩
      · exact .inl (by simp [H.set, ha])
    · intro a ha
      have : a ≠ f := fun x => (List.nodup_append'.mp hnd.2).2.2 ha (x ▸ b2)
      simp [H.set, this]

/-- Copying one item, if the loop over its children does what it should. -/
theorem dup_item {r : Bool} {p n : Nat} {src : Item V} {nm vs : Option (List UInt8)} {Tn Tv : List Nat} {xs : List (Option (List UInt8) × J V)} {j : J V} (hf : Fresh h)
    (hsrc : h.cells p = some (.item src)) (hn : Name h src.str nm Tn) (hv : Name h src.vstr vs Tv)
    (hr : r = false → xs = []) (hk : r = true → ∀ h1 q it S, Part ok h h1 q it S → it.child = none → LoopRes ok h h1 q it S [] xs (copies (duplicate ok true n) q n h1 src.child none))
    (hj : ∀ (h' : H V) (it : Item V) (Sv Sc : List Nat), it.ty = src.ty → Name h' it.vstr (vs.map cstr) Sv → Seg h' it.child (xs.map both) Sc none → Val h' it (seen j) (Sv ++ Sc)) :
    ItemRes ok h (nm, j) (duplicate ok r (n + 1) h p) := by
  have hpl : p < h.used := lt_used hf (by simp [hsrc])
  have nl : ∀ {p' : Option Nat} {m : Option (List UInt8)} {T : List Nat}, Name h p' m T → ∀ a ∈ T, a < h.used := fun hN a ha => lt_used hf (hN.str.some_of_mem ha)
  unfold duplicate
  by_cases ho : ok h.used = true
  swap
  · rw [newItem_fail ho]
    exact .inl ⟨_, rfl, ⟨rfl, by simp, fun a ha => hf a (by dsimp only at ha; omega)⟩, fun hc => ho (hc h.used (Nat.le_refl _) (by simp))⟩
  rw [newItem_ok ho]
  dsimp only
  generalize hh1 : ({ used := h.used + 1, cells := fun b => if b = h.used then some (.item ⟨.invalid, none, none, none, none, none⟩) else h.cells b } : H V) = h1
  have P1 : Part ok h h1 h.used ⟨.invalid, none, none, none, none, none⟩ [] := by
    rw [← hh1]
    refine ⟨by simp, rfl, by simp, by simp, by simp, ?_, by simp, ?_, ?_⟩
    · intro a ha; simp at ha; simp [ha]
    · intro a ha; dsimp only at ha ⊢; rw [if_neg (by omega)]; exact hf a (by omega)
    · intro k x y; dsimp only at y; rw [show k = h.used by omega]; exact ho
  clear hh1
  have e1 : item h1 p = some src := by simp [item, P1.old hpl, hsrc]
  rw [e1, Option.bind_some]
  obtain ⟨h2, e2, P2, -⟩ := P1.upd (fun it => { it with ty := src.ty }) rfl
  rw [e2, Option.bind_some]
  rcases P2.strdup (hv.congr fun a ha => P2.old (nl hv a ha)) with ⟨h3, e3, c3, u3, no⟩ | ⟨v, Sv, h3, e3, P3, N3, -⟩
  · rw [e3, Option.bind_some]
    dsimp only
    obtain ⟨h4, e4, F4, no4⟩ := P2.drop (h' := h3) (Sn := []) (Sv := []) (Sc := []) hf rfl rfl .nil (by simp) c3 u3 no
    exact .inl ⟨h4, by simpa using e4, F4, no4⟩
  rw [e3, Option.bind_some]
  dsimp only
  rw [if_pos rfl]
  obtain ⟨h4, e4, P4, K4⟩ := P3.upd (fun it => { it with vstr := v }) rfl
  rw [e4, Option.bind_some]
  rw [List.nil_append] at P3 P4
  have N4 : Name h4 v (vs.map cstr) Sv := N3.congr fun a ha => K4 a fun e => (List.nodup_cons.mp P3.nodup).1 (e ▸ ha)
  rcases P4.strdup (hn.congr fun a ha => P4.old (nl hn a ha)) with ⟨h5, e5, c5, u5, no⟩ | ⟨s, Sn, h5, e5, P5, N5, K5⟩
  · rw [e5, Option.bind_some]
    dsimp only
    obtain ⟨h6, e6, F6, no6⟩ := P4.drop (h' := h5) (Sn := []) (Sv := Sv) (Sc := []) hf rfl N4.str .nil (by simp) c5 u5 no
    exact .inl ⟨h6, by simpa using e6, F6, no6⟩
  rw [e5, Option.bind_some]
  dsimp only
  rw [if_pos rfl]
  obtain ⟨h6, e6, P6, K6⟩ := P5.upd (fun it => { it with str := s }) rfl
  rw [e6, Option.bind_some]
  have nd := (List.nodup_cons.mp P5.nodup).1
  have N6 : Name h6 s (nm.map cstr) Sn := N5.congr fun a ha => K6 a fun e => nd (by simp [← e, ha])
  have V6 : Name h6 v (vs.map cstr) Sv := N4.congr fun a ha => by
    rw [K6 a fun e => nd (by simp [← e, ha]), K5 a (by simp [ha])]
  cases r with
  | false =>
    rw [if_neg (by simp)]
    obtain rfl := hr rfl
    refine .inr ⟨h.used, h6, rfl, _, Sv ++ Sn, Sn, Sv, P6, List.perm_append_comm, N6, ?_⟩
    simpa [both] using hj h6 { ty := src.ty, next := none, prev := none, child := none, vstr := v, str := s } Sv [] rfl V6 (.nil none)
  | true =>
  rw [if_pos rfl]
  rcases hk rfl h6 h.used _ _ P6 rfl with ⟨l, l', zs, h7, h8, x, Sc, e7, P8, K8, C8, c7, u7, no⟩ | ⟨l, h7, x, Sc, e7, P7, K7, C7⟩
  · rw [e7, Option.bind_some]
    dsimp only
    obtain ⟨h9, e9, F9, no9⟩ := P8.drop (h' := h7) (Sn := Sn) (Sv := Sv) hf (N6.congr fun a ha => C8 a (by simp [ha])).str (V6.congr fun a ha => C8 a (by simp [ha])).str K8.own
      (List.Perm.append_right _ List.perm_append_comm) c7 u7 no
    exact .inl ⟨h9, by simpa using e9, F9, no9⟩
  · rw [e7, Option.bind_some]
    dsimp only
    rw [if_pos rfl]
    obtain ⟨h8, e8, P8, S8, C8⟩ := Kids.close P7 K7
    refine .inr ⟨h.used, h8, by simp [e8], _, Sv ++ Sn ++ Sc, Sn, Sv ++ Sc, P8, ?_, ?_, ?_⟩
    · rw [← List.append_assoc]; exact List.Perm.append_right _ List.perm_append_comm
    · exact N6.congr fun a ha => by rw [C8 a (by simp [ha]), C7 a (by simp [ha])]
    · refine hj h8 _ Sv Sc rfl ?_ ?_
      · exact V6.congr fun a ha => by rw [C8 a (by simp [ha]), C7 a (by simp [ha])]
      · simpa using S8

theorem copies_step {q m : Nat} {it : Item V} {l : Option Nat} {ys xs : List (Option (List UInt8) × J V)} {S Sc : List Nat} {x : Option (List UInt8) × J V} {c : Nat} {src : Item V}
    {dup : H V → Nat → Out V} (hp : Part ok h0 h q it (S ++ Sc)) (hk : Kids h it l ys Sc) (hc : h0.cells c = some (.item src)) (hcl : c < h0.used) (hd : ItemRes ok h x (dup h c))
    (hrest : ∀ h' y c' Sc', Part ok h0 h' q { it with child := y } (S ++ Sc') → Kids h' { it with child := y } (some c') (ys ++ [both x]) Sc' →
      LoopRes ok h0 h' q { it with child := y } S (ys ++ [both x]) xs (copies dup q m h' src.next (some c'))) :
    LoopRes ok h0 h q it S ys (x :: xs) (copies dup q (m + 1) h (some c) l) := by
  unfold copies
  rcases hd with ⟨h1, e1, F1, no⟩ | ⟨c', h1, e1, C1⟩
  · rw [e1, Option.bind_some]
    refine .inl ⟨l, l, ys, h1, h, it.child, Sc, rfl, hp, hk, fun _ _ => rfl, F1.cells, F1.used, not_allOk no hp.used (Nat.le_refl _)⟩
  · rw [e1, Option.bind_some]
    dsimp only
    obtain ⟨h2, y, Sc2, e2, P2, K2, C2⟩ := Kids.hook hp hk C1
    rw [e2, Option.bind_some]
    have : item h2 c = some src := by simp [item, P2.old hcl, hc]
    rw [this, Option.bind_some]
    rcases hrest h2 y c' Sc2 P2 K2 with ⟨l1, l', zs, h7, h8, z, Sc, e7, P8, K8, C8, c7, u7, no⟩ | ⟨l1, h7, z, Sc, e7, P7, K7, C7⟩
    · exact .inl ⟨l1, l', zs, h7, h8, z, Sc, e7, P8, K8, fun a ha => (C8 a ha).trans (C2 a ha), c7, u7, no⟩
    · exact .inr ⟨l1, h7, z, Sc, e7, P7, by simpa using K7, fun a ha => (C7 a ha).trans (C2 a ha)⟩

/-- The loop over a list of children. -/
theorem copies_ok {hs : H V} {p e : Option Nat} {xs : List (Option (List UInt8) × J V)} {Sx : List Nat} (hseg : Seg hs p xs Sx e) :
    e = none → ∀ (n m : Nat), Sx.length ≤ n → Sx.length ≤ m → ∀ (h0 h : H V) (q : Nat) (it : Item V) (l : Option Nat) (ys : List (Option (List UInt8) × J V)) (S Sc : List Nat), Fresh h0 →
      Part ok h0 h q it (S ++ Sc) → Kids h it l ys Sc → (∀ a ∈ Sx, h0.cells a = hs.cells a) → (∀ a ∈ Sx, a < h0.used) →
      LoopRes ok h0 h q it S ys xs (copies (duplicate ok true n) q m h p l) := by
  induction hseg with
  | nil p =>
    rintro rfl n m - - h0 h q it l ys S Sc hf hp hk - -
    exact .inr ⟨l, h, it.child, Sc, by cases m <;> rfl, hp, by simpa using hk, fun _ _ => rfl⟩
  | @plain p src nm j Sn Sv rest Sr e a1 a2 a3 a4 a5 ih =>
    intro he n m hn hm h0 h q it l ys S Sc hf hp hk hcell hlt
    simp only [List.length_cons, List.length_append] at hn hm
    obtain ⟨n, rfl⟩ : ∃ k, n = k + 1 := ⟨n - 1, by omega⟩
    obtain ⟨m, rfl⟩ : ∃ k, m = k + 1 := ⟨m - 1, by omega⟩
    have hcell' : ∀ a ∈ p :: (Sn ++ Sv ++ Sr), h.cells a = hs.cells a := fun a ha => (hp.old (hlt a ha)).trans (hcell a ha)
    refine copies_step hp hk (src := src) (by rw [hcell p (by simp), a1]) (hlt p (by simp)) ?_ ?_
    · have hpl := a3.congr (h' := h) (fun a ha => hcell' a (by simp [ha])) rfl rfl
      refine dup_item (vs := match j with | .str s => some s | _ => none) (Tn := Sn) (Tv := Sv) (xs := []) hp.fresh (by rw [hcell' p (by simp), a1])
        (a2.congr fun a ha => hcell' a (by simp [ha])) ?_ (by simp) ?_ ?_
      · cases j with
        | null => exact ⟨hpl.2.1, hpl.2.2⟩
        | bool b => exact ⟨hpl.2.1, hpl.2.2⟩
        | num v => exact ⟨hpl.2.1, hpl.2.2⟩
        | str s => exact hpl.2
        | arr => exact hpl.elim
        | obj => exact hpl.elim
      · intro _ h1 q1 it1 S1 P1 hch
        rw [a4]
        refine .inr ⟨none, h1, none, [], by cases n <;> rfl, ?_, ⟨rfl, rfl, rfl⟩, fun _ _ => rfl⟩
        rw [List.append_nil, ← hch]; exact P1
      · intro h1 it1 Sv1 Sc1 t1 n1 s1
        have hc1 : it1.child = none ∧ Sc1 = [] := by
          cases hch : it1.child with
          | none => rw [hch] at s1; cases s1; exact ⟨rfl, rfl⟩
          | some f => rw [hch] at s1; cases s1
        rw [hc1.2, List.append_nil]
        cases j with
        | null => rw [seen]; exact ⟨⟨t1.trans hpl.1, n1.1, n1.2⟩, hc1.1⟩
        | bool b => rw [seen]; exact ⟨⟨t1.trans hpl.1, n1.1, n1.2⟩, hc1.1⟩
        | num v => rw [seen]; exact ⟨⟨t1.trans hpl.1, n1.1, n1.2⟩, hc1.1⟩
        | str s => rw [seen]; exact ⟨⟨t1.trans hpl.1, n1⟩, hc1.1⟩
        | arr => exact hpl.elim
        | obj => exact hpl.elim
    · intro h' y c' Sc' P' K'
      exact ih he (n + 1) m (by omega) (by omega) h0 h' q _ (some c') _ S Sc' hf P' K' (fun a ha => hcell a (by simp [ha])) (fun a ha => hlt a (by simp [ha]))
  | @arr p src nm xs Sn Sk rest Sr e a1 a2 a3 a4 a5 a6 ih1 ih2 =>
    intro he n m hn hm h0 h q it l ys S Sc hf hp hk hcell hlt
    simp only [List.length_cons, List.length_append] at hn hm
    obtain ⟨n, rfl⟩ : ∃ k, n = k + 1 := ⟨n - 1, by omega⟩
    obtain ⟨m, rfl⟩ : ∃ k, m = k + 1 := ⟨m - 1, by omega⟩
    have hcell' : ∀ a ∈ p :: (Sn ++ Sk ++ Sr), h.cells a = hs.cells a := fun a ha => (hp.old (hlt a ha)).trans (hcell a ha)
    refine copies_step hp hk (src := src) (by rw [hcell p (by simp), a1]) (hlt p (by simp)) ?_ ?_
    · refine dup_item (vs := none) (Tn := Sn) (Tv := []) (xs := xs.map fun x => (none, x)) hp.fresh (by rw [hcell' p (by simp), a1])
        (a2.congr fun a ha => hcell' a (by simp [ha])) ⟨a4, rfl⟩ (by simp) ?_ ?_
      · intro _ h1 q1 it1 S1 P1 hch
        exact ih1 rfl n n (by omega) (by omega) h h1 q1 it1 none [] S1 [] hp.fresh (by simpa using P1) ⟨rfl, rfl, hch⟩ (fun a ha => hcell' a (by simp [ha]))
          (fun a ha => by have := hlt a (by simp [ha]); have := hp.used; omega)
      · intro h1 it1 Sv1 Sc1 t1 n1 s1
        rw [n1.2, List.nil_append, seen_arr]
        refine ⟨t1.trans a3, n1.1, ?_⟩
        simpa [both, Function.comp_def] using s1
    · intro h' y c' Sc' P' K'
      exact ih2 he (n + 1) m (by omega) (by omega) h0 h' q _ (some c') _ S Sc' hf P' K' (fun a ha => hcell a (by simp [ha])) (fun a ha => hlt a (by simp [ha]))
  | @obj p src nm xs Sn Sk rest Sr e a1 a2 a3 a4 a5 a6 ih1 ih2 =>
    intro he n m hn hm h0 h q it l ys S Sc hf hp hk hcell hlt
    simp only [List.length_cons, List.length_append] at hn hm
    obtain ⟨n, rfl⟩ : ∃ k, n = k + 1 := ⟨n - 1, by omega⟩
    obtain ⟨m, rfl⟩ : ∃ k, m = k + 1 := ⟨m - 1, by omega⟩
    have hcell' : ∀ a ∈ p :: (Sn ++ Sk ++ Sr), h.cells a = hs.cells a := fun a ha => (hp.old (hlt a ha)).trans (hcell a ha)
    refine copies_step hp hk (src := src) (by rw [hcell p (by simp), a1]) (hlt p (by simp)) ?_ ?_
    · refine dup_item (vs := none) (Tn := Sn) (Tv := []) (xs := xs.map fun x => (some x.1, x.2)) hp.fresh (by rw [hcell' p (by simp), a1])
        (a2.congr fun a ha => hcell' a (by simp [ha])) ⟨a4, rfl⟩ (by simp) ?_ ?_
      · intro _ h1 q1 it1 S1 P1 hch
        exact ih1 rfl n n (by omega) (by omega) h h1 q1 it1 none [] S1 [] hp.fresh (by simpa using P1) ⟨rfl, rfl, hch⟩ (fun a ha => hcell' a (by simp [ha]))
          (fun a ha => by have := hlt a (by simp [ha]); have := hp.used; omega)
      · intro h1 it1 Sv1 Sc1 t1 n1 s1
        rw [n1.2, List.nil_append, seen_obj]
        refine ⟨t1.trans a3, n1.1, ?_⟩
        simpa [both, Function.comp_def] using s1
    · intro h' y c' Sc' P' K'
      exact ih2 he (n + 1) m (by omega) (by omega) h0 h' q _ (some c') _ S Sc' hf P' K' (fun a ha => hcell a (by simp [ha])) (fun a ha => hlt a (by simp [ha]))

/-- The value without what is in it. -/
def bare : J V → J V
  | .arr _ => .arr []
  | .obj _ => .obj []
  | j => j

/-- Copying an item, with what is in it or without. -/
theorem duplicate_ok {r : Bool} {p : Nat} {nm : Option (List UInt8)} {j : J V} {S : List Nat} {e : Option Nat} (hf : Fresh h) (hs : Seg h (some p) [(nm, j)] S e) (n : Nat) (hn : S.length ≤ n) :
    ItemRes ok h (nm, if r then j else bare j) (duplicate ok r n h p) := by
  have lt := hs.cells_lt hf
  cases hs with
  | plain a1 a2 a3 a4 a5 =>
    rename_i it Sn Sv Sr
    simp only [List.length_cons, List.length_append] at hn
    obtain ⟨n, rfl⟩ : ∃ k, n = k + 1 := ⟨n - 1, by omega⟩
    have hb : (if r then j else bare j) = j := by cases r <;> cases j <;> first | rfl | exact a3.elim
    rw [hb]
    refine dup_item (vs := match j with | .str s => some s | _ => none) (Tn := Sn) (Tv := Sv) (xs := []) hf a1 a2 ?_ (by simp) ?_ ?_
    · cases j with
      | null => exact ⟨a3.2.1, a3.2.2⟩
      | bool b => exact ⟨a3.2.1, a3.2.2⟩
      | num v => exact ⟨a3.2.1, a3.2.2⟩
      | str s => exact a3.2
      | arr => exact a3.elim
      | obj => exact a3.elim
    · intro _ h1 q1 it1 S1 P1 hch
      rw [a4]
      refine .inr ⟨none, h1, none, [], by cases n <;> rfl, ?_, ⟨rfl, rfl, rfl⟩, fun _ _ => rfl⟩
      rw [List.append_nil, ← hch]; exact P1
    · intro h1 it1 Sv1 Sc1 t1 n1 s1
      have hc1 : it1.child = none ∧ Sc1 = [] := by
        cases hch : it1.child with
        | none => rw [hch] at s1; cases s1; exact ⟨rfl, rfl⟩
        | some f => rw [hch] at s1; cases s1
      rw [hc1.2, List.append_nil]
      cases j with
      | null => rw [seen]; exact ⟨⟨t1.trans a3.1, n1.1, n1.2⟩, hc1.1⟩
      | bool b => rw [seen]; exact ⟨⟨t1.trans a3.1, n1.1, n1.2⟩, hc1.1⟩
      | num v => rw [seen]; exact ⟨⟨t1.trans a3.1, n1.1, n1.2⟩, hc1.1⟩
      | str s => rw [seen]; exact ⟨⟨t1.trans a3.1, n1⟩, hc1.1⟩
      | arr => exact a3.elim
      | obj => exact a3.elim
  | arr a1 a2 a3 a4 a5 a6 =>
    rename_i it xs Sn Sk Sr
    simp only [List.length_cons, List.length_append] at hn
    obtain ⟨n, rfl⟩ : ∃ k, n = k + 1 := ⟨n - 1, by omega⟩
    refine dup_item (vs := none) (Tn := Sn) (Tv := []) (xs := if r then xs.map fun x => (none, x) else []) hf a1 a2 ⟨a4, rfl⟩ (by rintro rfl; rfl) ?_ ?_
    · rintro rfl h1 q1 it1 S1 P1 hch
      exact copies_ok a5 rfl n n (by omega) (by omega) h h1 q1 it1 none [] S1 [] hf (by simpa using P1) ⟨rfl, rfl, hch⟩ (fun _ _ => rfl) (fun a ha => lt a (by simp [ha]))
    · intro h1 it1 Sv1 Sc1 t1 n1 s1
      rw [n1.2, List.nil_append]
      cases r with
      | true =>
        simp only [if_true] at s1 ⊢
        rw [seen_arr]
        exact ⟨t1.trans a3, n1.1, by simpa [both, Function.comp_def] using s1⟩
      | false =>
        simp only [Bool.false_eq_true, if_false, bare] at s1 ⊢
        rw [seen_arr]
        exact ⟨t1.trans a3, n1.1, by simpa using s1⟩
  | obj a1 a2 a3 a4 a5 a6 =>
    rename_i it xs Sn Sk Sr
    simp only [List.length_cons, List.length_append] at hn
    obtain ⟨n, rfl⟩ : ∃ k, n = k + 1 := ⟨n - 1, by omega⟩
    refine dup_item (vs := none) (Tn := Sn) (Tv := []) (xs := if r then xs.map fun x => (some x.1, x.2) else []) hf a1 a2 ⟨a4, rfl⟩ (by rintro rfl; rfl) ?_ ?_
    · rintro rfl h1 q1 it1 S1 P1 hch
      exact copies_ok a5 rfl n n (by omega) (by omega) h h1 q1 it1 none [] S1 [] hf (by simpa using P1) ⟨rfl, rfl, hch⟩ (fun _ _ => rfl) (fun a ha => lt a (by simp [ha]))
    · intro h1 it1 Sv1 Sc1 t1 n1 s1
      rw [n1.2, List.nil_append]
      cases r with
      | true =>
        simp only [if_true] at s1 ⊢
        rw [seen_obj]
        exact ⟨t1.trans a3, n1.1, by simpa [both, Function.comp_def] using s1⟩
      | false =>
        simp only [Bool.false_eq_true, if_false, bare] at s1 ⊢
        rw [seen_obj]
        exact ⟨t1.trans a3, n1.1, by simpa using s1⟩

theorem cstr_id {s : List UInt8} (hs : 0 ∉ s) : cstr s = s := by
  unfold cstr
  induction s with
  | nil => rfl
  | cons b s ih =>
    simp only [List.mem_cons, not_or] at hs
    rw [List.takeWhile_cons, if_pos (by simpa using fun e => hs.1 e.symm), ih hs.2]

theorem seen_id {j : J V} (hj : NoZero j) : seen j = j := by
  induction hj with
  | null => rw [seen]
  | bool b => rw [seen]
  | num v => rw [seen]
  | str hs => rw [seen, cstr_id hs]
  | arr _ ih => rw [seen_arr, List.map_congr_left ih, List.map_id']
  | obj hs _ ih =>
    rw [seen_obj, List.map_congr_left (g := id) fun x hx => by rw [cstr_id (hs x hx), ih x hx]; rfl, List.map_id]

end Verif.CJsonMem
