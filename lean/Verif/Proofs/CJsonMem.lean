import Verif.Spec.CJsonMem
import Mathlib.Data.List.Range
import Mathlib.Data.List.Nodup
import Mathlib.Data.Finset.Card
import Mathlib.Data.Finset.Range
import Mathlib.Data.List.Dedup
/-
Helper lemmas for C110: what lies in memory while a document is built, and what deleting does.
-/
namespace Verif.CJsonMem
open Verif.CJson

variable {V : Type} {h h' h0 h1 : H V} {ok : Nat → Bool}

/-! ### Which blocks belong to a list of items -/

/-- What a pointer to a string owns. -/
def Str (h : H V) : Option Nat → List Nat → Prop
  | none, S => S = []
  | some a, S => S = [a] ∧ (h.cells a).isSome = true

/-- What a list of items owns, complete or not. -/
inductive Own (h : H V) : Option Nat → List Nat → Prop
  | nil : Own h none []
  | cons {p : Nat} {it : Item V} {Sn Sv Sc S : List Nat} : h.cells p = some (.item it) → Str h it.str Sn → Str h it.vstr Sv → Own h it.child Sc → Own h it.next S →
      Own h (some p) (p :: (Sn ++ Sv ++ Sc ++ S))

theorem Name.str {p : Option Nat} {nm : Option (List UInt8)} {S : List Nat} (h1 : Name h p nm S) : Str h p S := by
  cases nm with
  | none => obtain ⟨rfl, rfl⟩ := h1; rfl
  | some s => obtain ⟨a, rfl, e, rfl⟩ := h1; exact ⟨rfl, by simp [e]⟩

theorem Plain.str {it : Item V} {j : J V} {S : List Nat} (h1 : Plain h it j S) : Str h it.vstr S := by
  cases j with
  | null => obtain ⟨-, e, rfl⟩ := h1; rw [e]; rfl
  | bool b => obtain ⟨-, e, rfl⟩ := h1; rw [e]; rfl
  | num v => obtain ⟨-, e, rfl⟩ := h1; rw [e]; rfl
  | str s => obtain ⟨-, a, e, e', rfl⟩ := h1; rw [e]; exact ⟨rfl, by simp [e']⟩
  | arr => exact h1.elim
  | obj => exact h1.elim

theorem Seg.own {p q : Option Nat} {xs : List (Option (List UInt8) × J V)} {S : List Nat} (hs : Seg h p xs S q) : ∀ {T : List Nat}, Own h q T → Own h p (S ++ T) := by
  induction hs with
  | nil p => intro T hT; exact hT
  | @plain p it nm j Sn Sv rest S q a1 a2 a3 a4 a5 ih =>
    intro T hT
    have := Own.cons a1 a2.str a3.str (a4 ▸ Own.nil) (ih hT)
    simpa using this
  | @arr p it nm xs Sn Sc rest S q a1 a2 a3 a4 a5 a6 ih1 ih2 =>
    intro T hT
    have hc := ih1 Own.nil
    rw [List.append_nil] at hc
    have := Own.cons (Sv := []) a1 a2.str (by rw [a4]; rfl) hc (ih2 hT)
    simpa using this
  | @obj p it nm xs Sn Sc rest S q a1 a2 a3 a4 a5 a6 ih1 ih2 =>
    intro T hT
    have hc := ih1 Own.nil
    rw [List.append_nil] at hc
    have := Own.cons (Sv := []) a1 a2.str (by rw [a4]; rfl) hc (ih2 hT)
    simpa using this

theorem Str.some_of_mem {p : Option Nat} {S : List Nat} (hs : Str h p S) {a : Nat} (ha : a ∈ S) : (h.cells a).isSome = true := by
  cases p with
  | none => rw [show S = [] from hs] at ha; cases ha
  | some b => obtain ⟨rfl, e⟩ := hs; simp only [List.mem_singleton] at ha; subst ha; exact e

theorem Own.some_of_mem {p : Option Nat} {S : List Nat} (ho : Own h p S) : ∀ a ∈ S, (h.cells a).isSome = true := by
  induction ho with
  | nil => intro a ha; cases ha
  | cons a1 a2 a3 _ _ ih1 ih2 =>
    intro a ha
    simp only [List.mem_cons, List.mem_append] at ha
    rcases ha with rfl | ((ha | ha) | ha) | ha
    · simp [a1]
    · exact a2.some_of_mem ha
    · exact a3.some_of_mem ha
    · exact ih1 a ha
    · exact ih2 a ha

theorem nodup_length {S : List Nat} {n : Nat} (hn : S.Nodup) (hl : ∀ a ∈ S, a < n) : S.length ≤ n := by
  have h1 : S.toFinset ⊆ Finset.range n := by
    intro a ha; simp only [List.mem_toFinset] at ha; simpa using hl a ha
  have h2 := Finset.card_le_card h1
  rw [List.toFinset_card_of_nodup hn, Finset.card_range] at h2
  exact h2

/-! ### Deleting -/

/-- The blocks `S` were given back, and nothing else happened. -/
def Gone (S : List Nat) (h h' : H V) : Prop := h'.used = h.used ∧ ∀ a, h'.cells a = if a ∈ S then none else h.cells a

theorem Gone.refl (h : H V) : Gone [] h h := ⟨rfl, by simp⟩

theorem Gone.trans {S T : List Nat} {h2 : H V} (a : Gone S h h1) (b : Gone T h1 h2) : Gone (S ++ T) h h2 := by
  refine ⟨b.1.trans a.1, fun x => ?_⟩
  rw [b.2, a.2]
  by_cases hx : x ∈ T <;> by_cases hy : x ∈ S <;> simp [hx, hy]

theorem free_gone {a : Nat} (ha : (h.cells a).isSome = true) : ∃ h', free h a = some h' ∧ Gone [a] h h' := by
  exact ⟨h.set a none, by simp [free, ha], rfl, fun b => by simp [H.set]⟩

theorem freeOpt_gone {p : Option Nat} {S : List Nat} {h2 : H V} (hs : Str h p S) (he : ∀ a ∈ S, h2.cells a = h.cells a) :
    ∃ h', freeOpt h2 p = some h' ∧ Gone S h2 h' := by
  cases p with
  | none => rw [show S = [] from hs]; exact ⟨h2, rfl, Gone.refl h2⟩
  | some a =>
    obtain ⟨rfl, e⟩ := hs
    exact free_gone (by rw [he a (by simp)]; exact e)

theorem Gone.keep {S T : List Nat} (g : Gone S h h') (hd : List.Disjoint S T) : ∀ a ∈ T, h'.cells a = h.cells a := by
  intro a ha
  rw [g.2, if_neg]
  exact fun hx => hd hx ha

theorem delete_own {p : Option Nat} {S : List Nat} (ho : Own h p S) : ∀ (n : Nat) (h2 : H V), S.Nodup → (∀ a ∈ S, h2.cells a = h.cells a) → S.length ≤ n →
    ∃ h', delete n h2 p = some h' ∧ Gone S h2 h' := by
  induction ho with
  | nil => intro n h2 _ _ _; exact ⟨h2, by cases n <;> rfl, Gone.refl h2⟩
  | @cons p it Sn Sv Sc S a1 a2 a3 a4 a5 ih1 ih2 =>
    intro n h2 hn he hl
    obtain ⟨n, rfl⟩ : ∃ m, n = m + 1 := ⟨n - 1, by simp at hl; omega⟩
    simp only [List.length_cons, List.length_append] at hl
    have hp : h2.cells p = some (.item it) := by rw [he p (by simp), a1]
    rw [List.nodup_cons] at hn
    obtain ⟨hp0, hn⟩ := hn
    rw [List.nodup_append'] at hn
    obtain ⟨hn1, hnS, hd1⟩ := hn
    rw [List.nodup_append'] at hn1
    obtain ⟨hn2, hnC, hd2⟩ := hn1
    rw [List.nodup_append'] at hn2
    obtain ⟨hnN, hnV, hd3⟩ := hn2
    simp only [List.mem_append, not_or] at hp0
    obtain ⟨⟨⟨q1, q2⟩, q3⟩, q4⟩ := hp0
    have dj : ∀ {A B : List Nat} {x : Nat}, List.Disjoint A B → x ∈ A → x ∈ B → False := fun d a b => d a b
    obtain ⟨g1, e1, G1⟩ := ih1 n h2 hnC (fun a ha => he a (by simp [ha])) (by omega)
    obtain ⟨g2, e2, G2⟩ := freeOpt_gone (h2 := g1) a3 (fun a ha => by
      rw [G1.keep (T := Sv) (fun x hx hy => hd2 (List.mem_append_right _ hy) hx) a ha]; exact he a (by simp [ha]))
    have G12 := G1.trans G2
    obtain ⟨g3, e3, G3⟩ := freeOpt_gone (h2 := g2) a2 (fun a ha => by
      rw [G12.keep (T := Sn) (fun x hx hy => by
        rcases List.mem_append.mp hx with hx | hx
        · exact hd2 (List.mem_append_left _ hy) hx
        · exact hd3 hy hx) a ha]; exact he a (by simp [ha]))
    have G123 := G12.trans G3
    obtain ⟨g4, e4, G4⟩ := free_gone (h := g3) (a := p) (by
      rw [G123.keep (T := [p]) (fun x hx hy => by
        simp only [List.mem_singleton] at hy; subst hy
        simp only [List.mem_append] at hx; tauto) p (by simp), hp]; rfl)
    have G1234 := G123.trans G4
    obtain ⟨g5, e5, G5⟩ := ih2 n g4 hnS (fun a ha => by
      rw [G1234.keep (T := S) (fun x hx hy => by
        simp only [List.mem_append, List.mem_singleton] at hx
        rcases hx with ((hx | hx) | hx) | rfl
        · exact hd1 (by simp [hx]) hy
        · exact hd1 (by simp [hx]) hy
        · exact hd1 (by simp [hx]) hy
        · exact q4 hy) a ha]; exact he a (by simp [ha])) (by omega)
    refine ⟨g5, ?_, ?_⟩
    · simp only [delete, item, hp, Option.bind_some, e1, e2, e3, e4, e5]
    · have G := G1234.trans G5
      refine ⟨G.1, fun a => ?_⟩
      rw [G.2]
      have : a ∈ Sc ++ Sv ++ Sn ++ [p] ++ S ↔ a ∈ p :: (Sn ++ Sv ++ Sc ++ S) := by
        simp only [List.mem_append, List.mem_cons, List.not_mem_nil, or_false]; tauto
      simp only [this]

/-! ### Locality -/

theorem Name.congr {p : Option Nat} {nm : Option (List UInt8)} {S : List Nat} (hn : Name h p nm S) (he : ∀ a ∈ S, h'.cells a = h.cells a) : Name h' p nm S := by
  cases nm with
  | none => exact hn
  | some s => obtain ⟨a, rfl, e, rfl⟩ := hn; exact ⟨a, rfl, by rw [he a (by simp)]; exact e, rfl⟩

theorem Plain.congr {it it' : Item V} {j : J V} {S : List Nat} (hp : Plain h it j S) (he : ∀ a ∈ S, h'.cells a = h.cells a) (e1 : it'.ty = it.ty) (e2 : it'.vstr = it.vstr) :
    Plain h' it' j S := by
  cases j with
  | null => simpa only [Plain, e1, e2] using hp
  | bool b => simpa only [Plain, e1, e2] using hp
  | num v => simpa only [Plain, e1, e2] using hp
  | str s =>
    obtain ⟨e0, a, e, e', rfl⟩ := hp
    exact ⟨e1.trans e0, a, e2.trans e, by rw [he a (by simp)]; exact e', rfl⟩
  | arr => exact hp.elim
  | obj => exact hp.elim

theorem Seg.congr {p q : Option Nat} {xs : List (Option (List UInt8) × J V)} {S : List Nat} (hs : Seg h p xs S q) : (∀ a ∈ S, h'.cells a = h.cells a) → Seg h' p xs S q := by
  induction hs with
  | nil p => intro _; exact .nil p
  | @plain p it nm j Sn Sv rest S q a1 a2 a3 a4 a5 ih =>
    intro he
    exact .plain (by rw [he p (by simp)]; exact a1) (a2.congr fun a ha => he a (by simp [ha])) (a3.congr (fun a ha => he a (by simp [ha])) rfl rfl) a4
      (ih fun a ha => he a (by simp [ha]))
  | @arr p it nm xs Sn Sc rest S q a1 a2 a3 a4 a5 a6 ih1 ih2 =>
    intro he
    exact .arr (by rw [he p (by simp)]; exact a1) (a2.congr fun a ha => he a (by simp [ha])) a3 a4 (ih1 fun a ha => he a (by simp [ha])) (ih2 fun a ha => he a (by simp [ha]))
  | @obj p it nm xs Sn Sc rest S q a1 a2 a3 a4 a5 a6 ih1 ih2 =>
    intro he
    exact .obj (by rw [he p (by simp)]; exact a1) (a2.congr fun a ha => he a (by simp [ha])) a3 a4 (ih1 fun a ha => he a (by simp [ha])) (ih2 fun a ha => he a (by simp [ha]))

theorem Seg.append {p q r : Option Nat} {xs ys : List (Option (List UInt8) × J V)} {S T : List Nat} (hs : Seg h p xs S q) : Seg h q ys T r → Seg h p (xs ++ ys) (S ++ T) r := by
  induction hs with
  | nil p => intro ht; exact ht
  | plain a1 a2 a3 a4 a5 ih =>
    intro ht
    have := Seg.plain a1 a2 a3 a4 (ih ht)
    simpa using this
  | arr a1 a2 a3 a4 a5 a6 ih1 ih2 =>
    intro ht
    have := Seg.arr a1 a2 a3 a4 a5 (ih2 ht)
    simpa using this
  | obj a1 a2 a3 a4 a5 a6 ih1 ih2 =>
    intro ht
    have := Seg.obj a1 a2 a3 a4 a5 (ih2 ht)
    simpa using this

/-- The value of an item, with the blocks it takes. -/
def Val (h : H V) (it : Item V) (j : J V) (S : List Nat) : Prop :=
  match j with
  | .arr xs => it.ty = .array ∧ it.vstr = none ∧ Seg h it.child (xs.map fun x => (none, x)) S none
  | .obj xs => it.ty = .object ∧ it.vstr = none ∧ Seg h it.child (xs.map fun x => (some x.1, x.2)) S none
  | j => Plain h it j S ∧ it.child = none

theorem Val.seg {p : Nat} {it : Item V} {nm : Option (List UInt8)} {j : J V} {Sn Sv : List Nat} (hv : Val h it j Sv) (hp : h.cells p = some (.item it)) (hn : Name h it.str nm Sn) :
    Seg h (some p) [(nm, j)] (p :: (Sn ++ Sv)) it.next := by
  cases j with
  | arr xs => simpa using Seg.arr hp hn hv.1 hv.2.1 hv.2.2 (Seg.nil it.next)
  | obj xs => simpa using Seg.obj hp hn hv.1 hv.2.1 hv.2.2 (Seg.nil it.next)
  | null => simpa using Seg.plain hp hn hv.1 hv.2 (Seg.nil it.next)
  | bool b => simpa using Seg.plain hp hn hv.1 hv.2 (Seg.nil it.next)
  | num v => simpa using Seg.plain hp hn hv.1 hv.2 (Seg.nil it.next)
  | str s => simpa using Seg.plain hp hn hv.1 hv.2 (Seg.nil it.next)

theorem Val.congr {it it' : Item V} {j : J V} {S : List Nat} (hv : Val h it j S) (he : ∀ a ∈ S, h'.cells a = h.cells a) (e1 : it'.ty = it.ty) (e2 : it'.vstr = it.vstr)
    (e3 : it'.child = it.child) : Val h' it' j S := by
  cases j with
  | arr xs => exact ⟨e1.trans hv.1, e2.trans hv.2.1, e3 ▸ hv.2.2.congr he⟩
  | obj xs => exact ⟨e1.trans hv.1, e2.trans hv.2.1, e3 ▸ hv.2.2.congr he⟩
  | null => exact ⟨hv.1.congr he e1 e2, e3.trans hv.2⟩
  | bool b => exact ⟨hv.1.congr he e1 e2, e3.trans hv.2⟩
  | num v => exact ⟨hv.1.congr he e1 e2, e3.trans hv.2⟩
  | str s => exact ⟨hv.1.congr he e1 e2, e3.trans hv.2⟩

/-! ### What a function of the parser does -/

/-- Everything is as before. -/
structure Failed (h h' : H V) : Prop where
  cells : h'.cells = h.cells
  used : h.used ≤ h'.used
  fresh : Fresh h'

/-- The value was put into the item `p`. -/
structure Done (h h' : H V) (p : Nat) (it it' : Item V) (j : J V) (S : List Nat) : Prop where
  at_ : h'.cells p = some (.item it')
  next : it'.next = it.next
  str : it'.str = it.str
  val : Val h' it' j S
  nodup : S.Nodup
  new : ∀ a ∈ S, h.used ≤ a
  rest : ∀ a, a ≠ p → a ∉ S → h'.cells a = h.cells a
  used : h.used ≤ h'.used
  fresh : Fresh h'

/-- No allocation failed in between. -/
def AllOk (ok : Nat → Bool) (h h' : H V) : Prop := ∀ k, h.used ≤ k → k < h'.used → ok k = true

theorem AllOk.refl : AllOk ok h h := fun k a b => by omega

theorem AllOk.trans {h2 : H V} (a : AllOk ok h h1) (b : AllOk ok h1 h2) : AllOk ok h h2 := fun k x y => by
  by_cases hk : k < h1.used
  · exact a k x hk
  · exact b k (by omega) y

theorem not_allOk {h2 h3 : H V} (a : ¬ AllOk ok h1 h2) (x : h.used ≤ h1.used) (y : h2.used ≤ h3.used) : ¬ AllOk ok h h3 := fun hc =>
  a fun k p q => hc k (by omega) (by omega)

/-- An item without a value. -/
def Raw (it : Item V) : Prop := it.vstr = none ∧ it.child = none

/-- The function of the parser with the result `o` does what the parser without memory does, whose result is `r`; or an allocation failed. -/
def Agrees (ok : Nat → Bool) (h : H V) (p : Nat) (it : Item V) (r : R (J V × Nat)) (o : Out V) : Prop :=
  match r with
  | .error .reject => ∃ h', o = some (none, h') ∧ Failed h h'
  | .error _ => True
  | .ok (j, k) =>
    (∃ h', o = some (none, h') ∧ Failed h h' ∧ ¬ AllOk ok h h') ∨ (∃ h' it' S, o = some (some k, h') ∧ Done h h' p it it' j S ∧ AllOk ok h h')

/-- The items `ys` are complete; the list begins at `f` and ends at `cur`; nothing else is different from `h0`. -/
def Complete (h0 h : H V) (f cur : Nat) (ys : List (Option (List UInt8) × J V)) : Prop :=
  ∃ xs nm j it S1 Sn Sv, ys = xs ++ [(nm, j)] ∧ Seg h (some f) xs S1 (some cur) ∧ h.cells cur = some (.item it) ∧ it.next = none ∧ Name h it.str nm Sn ∧ Val h it j Sv ∧
    (S1 ++ (cur :: (Sn ++ Sv))).Nodup ∧ (∀ a ∈ S1 ++ (cur :: (Sn ++ Sv)), h0.used ≤ a) ∧ (∀ a, a ∉ S1 ++ (cur :: (Sn ++ Sv)) → h.cells a = h0.cells a) ∧
    h0.used ≤ h.used ∧ Fresh h

/-- The items `ys` are complete; the last item, at `cur`, has at most a name. -/
def Open (h0 h : H V) (f cur : Nat) (ys : List (Option (List UInt8) × J V)) (nm : Option (List UInt8)) (it : Item V) : Prop :=
  ∃ S Sn, Seg h (some f) ys S (some cur) ∧ h.cells cur = some (.item it) ∧ Raw it ∧ it.next = none ∧ Name h it.str nm Sn ∧
    (S ++ (cur :: Sn)).Nodup ∧ (∀ a ∈ S ++ (cur :: Sn), h0.used ≤ a) ∧ (∀ a, a ∉ S ++ (cur :: Sn) → h.cells a = h0.cells a) ∧ h0.used ≤ h.used ∧ Fresh h

theorem lt_used (hf : Fresh h) {a : Nat} (ha : (h.cells a).isSome = true) : a < h.used := by
  refine Classical.byContradiction fun hc => ?_
  rw [hf a (by omega)] at ha
  cases ha

/-- Dropping a list of new items leaves the memory as it was. -/
theorem drop_own {α : Type} {p : Option Nat} {S : List Nat} (ho : Own h p S) (hn : S.Nodup) (hf0 : Fresh h0) (hnew : ∀ a ∈ S, h0.used ≤ a)
    (hrest : ∀ a, a ∉ S → h.cells a = h0.cells a) (hu : h0.used ≤ h.used) (hf : Fresh h) :
    ∃ h', (drop h p : Option (Option α × H V)) = some (none, h') ∧ Failed h0 h' ∧ h'.used = h.used := by
  obtain ⟨h', e, G⟩ := delete_own ho h.used h hn (fun _ _ => rfl) (nodup_length hn fun a ha => lt_used hf (ho.some_of_mem a ha))
  have hc : h'.cells = h0.cells := by
    funext a
    rw [G.2]
    split
    · next ha => rw [hf0 a (hnew a ha)]
    · next ha => exact hrest a ha
  refine ⟨h', by simp [drop, e], ⟨hc, by rw [G.1]; exact hu, fun a ha => ?_⟩, G.1⟩
  rw [hc, hf0 a (by rw [G.1] at ha; omega)]

theorem Open.drop {α : Type} {f cur : Nat} {ys : List (Option (List UInt8) × J V)} {nm : Option (List UInt8)} {it : Item V} (ho : Open h0 h f cur ys nm it) (hf0 : Fresh h0) :
    ∃ h', (drop h (some f) : Option (Option α × H V)) = some (none, h') ∧ Failed h0 h' ∧ h'.used = h.used := by
  obtain ⟨S, Sn, a1, a2, a3, a4, a5, a6, a7, a8, a9, a10⟩ := ho
  have h1 : Own h (some cur) (cur :: Sn) := by
    have := Own.cons (Sv := []) (Sc := []) (S := []) a2 a5.str (by rw [a3.1]; rfl) (a3.2 ▸ Own.nil) (a4 ▸ Own.nil)
    simpa using this
  exact drop_own (a1.own h1) a6 hf0 a7 a8 a9 a10

theorem Complete.drop {α : Type} {f cur : Nat} {ys : List (Option (List UInt8) × J V)} (hc : Complete h0 h f cur ys) (hf0 : Fresh h0) :
    ∃ h', (drop h (some f) : Option (Option α × H V)) = some (none, h') ∧ Failed h0 h' ∧ h'.used = h.used := by
  obtain ⟨xs, nm, j, it, S1, Sn, Sv, -, a1, a2, a3, a4, a5, a6, a7, a8, a9, a10⟩ := hc
  have h1 := (a1.append (a5.seg a2 a4)).own (a3 ▸ Own.nil)
  rw [List.append_nil] at h1
  exact drop_own h1 a6 hf0 a7 a8 a9 a10

/-- More allocations that failed. -/
theorem Complete.more {f cur : Nat} {ys : List (Option (List UInt8) × J V)} (hc : Complete h0 h f cur ys) (n : Nat) : Complete h0 { h with used := h.used + n } f cur ys := by
  obtain ⟨xs, nm, j, it, S1, Sn, Sv, e, a1, a2, a3, a4, a5, a6, a7, a8, a9, a10⟩ := hc
  exact ⟨xs, nm, j, it, S1, Sn, Sv, e, a1.congr fun _ _ => rfl, a2, a3, a4.congr fun _ _ => rfl, a5.congr (fun _ _ => rfl) rfl rfl rfl, a6, a7, a8,
    by dsimp only; omega, fun a ha => a10 a (by dsimp only at ha; omega)⟩

theorem Open.failed {f cur : Nat} {ys : List (Option (List UInt8) × J V)} {nm : Option (List UInt8)} {it : Item V} (ho : Open h0 h f cur ys nm it) (hf : Failed h h') :
    Open h0 h' f cur ys nm it := by
  obtain ⟨S, Sn, a1, a2, a3, a4, a5, a6, a7, a8, a9, a10⟩ := ho
  exact ⟨S, Sn, a1.congr fun a _ => congrFun hf.cells a, by rw [hf.cells]; exact a2, a3, a4, a5.congr fun a _ => congrFun hf.cells a, a6, a7,
    fun a ha => by rw [hf.cells]; exact a8 a ha, a9.trans hf.used, hf.fresh⟩

theorem Open.done {f cur : Nat} {ys : List (Option (List UInt8) × J V)} {nm : Option (List UInt8)} {it it' : Item V} {j : J V} {Sv : List Nat} (ho : Open h0 h f cur ys nm it)
    (hd : Done h h' cur it it' j Sv) : Complete h0 h' f cur (ys ++ [(nm, j)]) := by
  obtain ⟨S, Sn, a1, a2, a3, a4, a5, a6, a7, a8, a9, a10⟩ := ho
  have old : ∀ a ∈ S ++ (cur :: Sn), a < h.used := by
    intro a ha
    have h1 : Own h (some cur) (cur :: Sn) := by
      have := Own.cons (Sv := []) (Sc := []) (S := []) a2 a5.str (by rw [a3.1]; rfl) (a3.2 ▸ Own.nil) (a4 ▸ Own.nil)
      simpa using this
    exact lt_used a10 ((a1.own h1).some_of_mem a ha)
  have nv : ∀ a ∈ S ++ (cur :: Sn), a ∉ Sv := fun a ha hb => by have := old a ha; have := hd.new a hb; omega
  rw [List.nodup_append'] at a6
  obtain ⟨n1, n2, n3⟩ := a6
  rw [List.nodup_cons] at n2
  have kS : ∀ a ∈ S, h'.cells a = h.cells a := fun a ha =>
    hd.rest a (fun e => n3 ha (by simp [e])) (nv a (by simp [ha]))
  have kN : ∀ a ∈ Sn, h'.cells a = h.cells a := fun a ha =>
    hd.rest a (fun e => n2.1 (e ▸ ha)) (nv a (by simp [ha]))
  refine ⟨ys, nm, j, it', S, Sn, Sv, rfl, a1.congr kS, hd.at_, hd.next.trans a4, by rw [hd.str]; exact a5.congr kN, hd.val, ?_, ?_, ?_, a9.trans hd.used, hd.fresh⟩
  · rw [List.nodup_append', List.nodup_cons, List.nodup_append']
    refine ⟨n1, ⟨?_, n2.2, hd.nodup, ?_⟩, ?_⟩
    · simp only [List.mem_append, not_or]; exact ⟨n2.1, nv cur (by simp)⟩
    · intro a ha hb; exact nv a (by simp [ha]) hb
    · intro a ha hb
      simp only [List.mem_cons, List.mem_append] at hb
      rcases hb with rfl | hb | hb
      · exact n3 ha (by simp)
      · exact n3 ha (by simp [hb])
      · exact nv a (by simp [ha]) hb
  · intro a ha
    simp only [List.mem_append, List.mem_cons] at ha
    rcases ha with ha | rfl | ha | ha
    · exact a7 a (by simp [ha])
    · exact a7 a (by simp)
    · exact a7 a (by simp [ha])
    · have := hd.new a ha; omega
  · intro a ha
    simp only [List.mem_append, List.mem_cons, not_or] at ha
    rw [hd.rest a ha.2.1 ha.2.2.2]
    exact a8 a (by simp only [List.mem_append, List.mem_cons, not_or]; exact ⟨ha.1, ha.2.1, ha.2.2.1⟩)

/-- Where a list stands between two elements: nothing yet, or complete items. -/
def Stand (h0 h : H V) (hd : Option (Nat × Nat)) (ys : List (Option (List UInt8) × J V)) : Prop :=
  match hd with
  | none => ys = [] ∧ Failed h0 h
  | some (f, cur) => Complete h0 h f cur ys

theorem Stand.fresh {hd : Option (Nat × Nat)} {ys : List (Option (List UInt8) × J V)} (hs : Stand h0 h hd ys) : Fresh h := by
  cases hd with
  | none => exact hs.2.fresh
  | some x => obtain ⟨xs, nm, j, it, S1, Sn, Sv, -, a1, a2, a3, a4, a5, a6, a7, a8, a9, a10⟩ := hs; exact a10

theorem Stand.used {hd : Option (Nat × Nat)} {ys : List (Option (List UInt8) × J V)} (hs : Stand h0 h hd ys) : h0.used ≤ h.used := by
  cases hd with
  | none => exact hs.2.used
  | some x => obtain ⟨xs, nm, j, it, S1, Sn, Sv, -, a1, a2, a3, a4, a5, a6, a7, a8, a9, a10⟩ := hs; exact a9

theorem Stand.drop {α : Type} {hd : Option (Nat × Nat)} {ys : List (Option (List UInt8) × J V)} (hs : Stand h0 h hd ys) (hf0 : Fresh h0) :
    ∃ h', (drop { h with used := h.used + 1 } (hd.map (·.1)) : Option (Option α × H V)) = some (none, h') ∧ Failed h0 h' ∧ h'.used = h.used + 1 := by
  cases hd with
  | none =>
    refine ⟨{ h with used := h.used + 1 }, by simp [CJsonMem.drop, delete], ⟨hs.2.cells, ?_, fun a ha => hs.2.fresh a (by dsimp only at ha; omega)⟩, rfl⟩
    have := hs.2.used
    dsimp only; omega
  | some x => exact (Complete.more hs 1).drop hf0

/-- A new item at the end of the list. -/
theorem Stand.link {hd : Option (Nat × Nat)} {ys : List (Option (List UInt8) × J V)} (hs : Stand h0 h hd ys) :
    ∃ f h' it, link { used := h.used + 1, cells := fun b => if b = h.used then some (.item ⟨.invalid, none, none, none, none, none⟩) else h.cells b } hd h.used =
      some ((f, h.used), h') ∧ Open h0 h' f h.used ys none it ∧ h'.used = h.used + 1 := by
  cases hd with
  | none =>
    obtain ⟨rfl, e, u, fr⟩ := hs
    refine ⟨h.used, _, ⟨.invalid, none, none, none, none, none⟩, rfl, ⟨[], [], .nil _, by simp, ⟨rfl, rfl⟩, rfl, ⟨rfl, rfl⟩, by simp, ?_, ?_, by dsimp only; omega, ?_⟩, rfl⟩
    · intro a ha; simp at ha; omega
    · intro a ha; simp at ha; simp [ha, e]
    · intro a ha; dsimp only at ha ⊢; rw [if_neg (by omega)]; exact fr a (by omega)
  | some x =>
    obtain ⟨f, cur⟩ := x
    obtain ⟨xs, nm, j, it, S1, Sn, Sv, rfl, a1, a2, a3, a4, a5, a6, a7, a8, a9, a10⟩ := hs
    have hl : cur < h.used := lt_used a10 (by simp [a2])
    have hne : cur ≠ h.used := by omega
    have old : ∀ a ∈ S1 ++ (cur :: (Sn ++ Sv)), a < h.used := by
      intro a ha
      have h1 := (a1.append (a5.seg a2 a4)).own (a3 ▸ Own.nil)
      rw [List.append_nil] at h1
      exact lt_used a10 (h1.some_of_mem a ha)
    obtain ⟨n1, n2, n3⟩ := List.nodup_append'.mp a6
    rw [List.nodup_cons] at n2
    generalize hh' : ({ used := h.used + 1, cells := fun b => if b = h.used then some (.item ⟨.invalid, none, some cur, none, none, none⟩) else
        if b = cur then some (.item { it with next := some h.used }) else h.cells b } : H V) = h'
    have c1 : h'.cells cur = some (.item { it with next := some h.used }) := by rw [← hh']; simp [hne]
    have c2 : h'.cells h.used = some (.item ⟨.invalid, none, some cur, none, none, none⟩) := by rw [← hh']; simp
    have c3 : ∀ a, a ≠ cur → a ≠ h.used → h'.cells a = h.cells a := by intro a x y; rw [← hh']; simp [x, y]
    have keep : ∀ a ∈ S1 ++ (cur :: (Sn ++ Sv)), a ≠ cur → h'.cells a = h.cells a := fun a ha x => c3 a x (by have := old a ha; omega)
    refine ⟨f, h', _, ?_, ⟨S1 ++ (cur :: (Sn ++ Sv)), [], ?_, c2, ⟨rfl, rfl⟩, rfl, ⟨rfl, rfl⟩, ?_, ?_, ?_, ?_, ?_⟩, by rw [← hh']⟩
    · simp only [CJsonMem.link, upd, hne, if_false, a2, Option.bind_some, H.set]
      rw [if_neg (fun hx => hne hx.symm)]
      simp only [if_true, Option.map_some, Option.some.injEq, Prod.mk.injEq, true_and]
      rw [← hh']
      congr 1
      funext b
      by_cases x : b = h.used <;> by_cases y : b = cur <;> simp [x, y]
    · refine (a1.congr fun a ha => keep a (by simp [ha]) fun e => n3 ha (by simp [e])).append ?_
      exact Val.seg (it := { it with next := some h.used })
        (a5.congr (fun a ha => keep a (by simp [ha]) fun e => n2.1 (by simp [← e, ha])) rfl rfl rfl) c1
        (a4.congr fun a ha => keep a (by simp [ha]) fun e => n2.1 (by simp [← e, ha]))
    · rw [List.nodup_append']
      refine ⟨a6, by simp, fun a ha hb => ?_⟩
      simp only [List.mem_singleton] at hb
      have := old a ha; omega
    · intro a ha
      rw [List.mem_append] at ha
      rcases ha with ha | ha
      · exact a7 a ha
      · simp only [List.mem_singleton] at ha; omega
    · intro a ha
      rw [List.mem_append, not_or] at ha
      rw [c3 a (fun e => ha.1 (by simp [e])) (fun e => ha.2 (by simp [e]))]
      exact a8 a ha.1
    · rw [← hh']; dsimp only; omega
    · intro a ha
      have hu : h'.used = h.used + 1 := by rw [← hh']
      rw [c3 a (by omega) (by omega)]
      exact a10 a (by omega)

/-- The name of an item was parsed and is moved. -/
theorem Open.named {f cur : Nat} {ys : List (Option (List UInt8) × J V)} {it it' : Item V} {s : List UInt8} {Sv : List Nat} (ho : Open h0 h f cur ys none it)
    (hd : Done h h' cur it it' (.str s) Sv) :
    ∃ h2 it2, upd h' cur (fun it => { it with str := it.vstr, vstr := none }) = some h2 ∧ Open h0 h2 f cur ys (some s) it2 ∧ h2.used = h'.used := by
  obtain ⟨S, Sn, a1, a2, a3, a4, ⟨a5, rfl⟩, a6, a7, a8, a9, a10⟩ := ho
  obtain ⟨⟨b0, a, b1, b2, rfl⟩, b3⟩ := hd.val
  have hu := hd.used
  have hnew := hd.new a (by simp)
  have old : ∀ b ∈ S ++ [cur], b < h.used := by
    intro b hb
    have h1 : Own h (some cur) [cur] := by
      have := Own.cons (Sn := []) (Sv := []) (Sc := []) (S := []) a2 (by rw [a5]; rfl) (by rw [a3.1]; rfl) (a3.2 ▸ Own.nil) (a4 ▸ Own.nil)
      simpa using this
    exact lt_used a10 ((a1.own h1).some_of_mem b hb)
  have hac : a ≠ cur := by have := old cur (by simp); omega
  have hau : a < h'.used := lt_used hd.fresh (by simp [b2])
  obtain ⟨n1, n2, n3⟩ := List.nodup_append'.mp a6
  refine ⟨h'.set cur (some (.item { it' with str := it'.vstr, vstr := none })), { it' with str := it'.vstr, vstr := none }, by simp [upd, hd.at_], ⟨S, [a], ?_, by simp [H.set], ⟨rfl, b3⟩, hd.next.trans a4,
    ⟨a, b1, by simp [H.set, hac, b2], rfl⟩, ?_, ?_, ?_, a9.trans hu, ?_⟩, rfl⟩
  · refine a1.congr fun b hb => ?_
    have : b ≠ cur := fun e => n3 hb (by simp [e])
    simp only [H.set, this, if_false]
    exact hd.rest b this (by simp only [List.mem_singleton]; have := old b (by simp [hb]); omega)
  · rw [List.nodup_append']
    refine ⟨n1, by simp [hac.symm], fun b hb hc => ?_⟩
    simp only [List.mem_cons, List.not_mem_nil, or_false] at hc
    rcases hc with rfl | rfl
    · exact n3 hb (by simp)
    · have := old b (by simp [hb]); omega
  · intro b hb
    simp only [List.mem_append, List.mem_cons, List.not_mem_nil, or_false] at hb
    rcases hb with hb | rfl | rfl
    · exact a7 b (by simp [hb])
    · exact a7 b (by simp)
    · omega
  · intro b hb
    simp only [List.mem_append, List.mem_cons, List.not_mem_nil, or_false, not_or] at hb
    simp only [H.set, hb.2.1, if_false]
    rw [hd.rest b hb.2.1 (by simp [hb.2.2])]
    exact a8 b (by simp [hb.1, hb.2.1])
  · intro b hb
    have : b ≠ cur := by have := old cur (by simp); simp only [H.set] at hb; omega
    simp only [H.set, this, if_false]
    exact hd.fresh b hb

/-- The list becomes the value of the item. -/
theorem Complete.finish {p f cur k : Nat} {it : Item V} {ys : List (Option (List UInt8) × J V)} (hc : Complete h0 h f cur ys) (hf0 : Fresh h0)
    (hp : h0.cells p = some (.item it)) (ty : Ty V) :
    ∃ h' S, finish h p ty (some (f, cur)) k = some (some k, h') ∧ h'.used = h.used ∧ h'.cells p = some (.item { it with ty := ty, child := some f }) ∧
      Seg h' (some f) ys S none ∧ S.Nodup ∧ (∀ a ∈ S, h0.used ≤ a) ∧ (∀ a, a ≠ p → a ∉ S → h'.cells a = h0.cells a) ∧ h0.used ≤ h'.used ∧ Fresh h' := by
  obtain ⟨xs, nm, j, itc, S1, Sn, Sv, rfl, a1, a2, a3, a4, a5, a6, a7, a8, a9, a10⟩ := hc
  have hpl : p < h0.used := lt_used hf0 (by simp [hp])
  have hpS : p ∉ S1 ++ (cur :: (Sn ++ Sv)) := fun hx => by have := a7 p hx; omega
  have hseg := a1.append (a5.seg a2 a4)
  rw [a3] at hseg
  generalize hS : S1 ++ (cur :: (Sn ++ Sv)) = S at a6 a7 a8 hpS hseg
  have hcp : h.cells p = some (.item it) := by rw [a8 p hpS, hp]
  -- the first item of the list
  obtain ⟨itf, hf, hfS, hset⟩ : ∃ itf, h.cells f = some (.item itf) ∧ f ∈ S ∧
      ∀ g : H V, g.cells f = some (.item { itf with prev := some cur }) → (∀ a ∈ S, a ≠ f → g.cells a = h.cells a) → Seg g (some f) (xs ++ [(nm, j)]) S none := by
    clear hS a1
    generalize hxs : xs ++ [(nm, j)] = ys at hseg
    cases hseg with
    | plain b1 b2 b3 b4 b5 =>
      refine ⟨_, b1, by simp, fun g g1 g2 => ?_⟩
      rw [List.nodup_cons] at a6
      have ne : ∀ a, a ∈ _ → a ≠ f := fun a ha e => a6.1 (e ▸ ha)
      exact .plain g1 (b2.congr fun a ha => g2 a (by simp [ha]) (ne a (by simp [ha]))) (b3.congr (fun a ha => g2 a (by simp [ha]) (ne a (by simp [ha]))) rfl rfl) b4
        (b5.congr fun a ha => g2 a (by simp [ha]) (ne a (by simp [ha])))
    | arr b1 b2 b3 b4 b5 b6 =>
      refine ⟨_, b1, by simp, fun g g1 g2 => ?_⟩
      rw [List.nodup_cons] at a6
      have ne : ∀ a, a ∈ _ → a ≠ f := fun a ha e => a6.1 (e ▸ ha)
      exact .arr g1 (b2.congr fun a ha => g2 a (by simp [ha]) (ne a (by simp [ha]))) b3 b4 (b5.congr fun a ha => g2 a (by simp [ha]) (ne a (by simp [ha])))
        (b6.congr fun a ha => g2 a (by simp [ha]) (ne a (by simp [ha])))
    | obj b1 b2 b3 b4 b5 b6 =>
      refine ⟨_, b1, by simp, fun g g1 g2 => ?_⟩
      rw [List.nodup_cons] at a6
      have ne : ∀ a, a ∈ _ → a ≠ f := fun a ha e => a6.1 (e ▸ ha)
      exact .obj g1 (b2.congr fun a ha => g2 a (by simp [ha]) (ne a (by simp [ha]))) b3 b4 (b5.congr fun a ha => g2 a (by simp [ha]) (ne a (by simp [ha])))
        (b6.congr fun a ha => g2 a (by simp [ha]) (ne a (by simp [ha])))
  have hpf : p ≠ f := fun e => hpS (e ▸ hfS)
  refine ⟨(h.set f (some (.item { itf with prev := some cur }))).set p (some (.item { it with ty := ty, child := some f })), S, ?_, rfl, by simp [H.set], ?_, a6, a7, ?_, a9, ?_⟩
  · simp [CJsonMem.finish, upd, hf, hcp, H.set, hpf]
  · refine hset _ (by simp [H.set, hpf.symm]) fun a ha hne => ?_
    have : a ≠ p := fun e => hpS (e ▸ ha)
    simp [H.set, this, hne]
  · intro a ha hb
    have : a ≠ f := fun e => hb (e ▸ hfS)
    simp only [H.set, ha, this, if_false]
    exact a8 a hb
  · intro a ha
    have h1 : a ≠ p := by simp only [H.set] at ha; omega
    have h2 : a ≠ f := by
      have := lt_used a10 (a := f) (by simp [hf])
      simp only [H.set] at ha; omega
    simp only [H.set, h1, h2, if_false]
    exact a10 a ha

theorem leaf_agrees {p i : Nat} {it : Item V} {j : J V} {ty : Ty V} (hf : Fresh h) (hp : h.cells p = some (.item it))
    (hv : ∀ g : H V, Val g { it with ty := ty } j []) : Agrees ok h p it (.ok (j, i)) (leaf h p ty i) := by
  refine .inr ⟨h.set p (some (.item { it with ty := ty })), { it with ty := ty }, [], by simp [leaf, upd, hp], ?_, .refl⟩
  have hpl : p < h.used := lt_used hf (by simp [hp])
  exact ⟨by simp [H.set], rfl, rfl, hv _, by simp, by simp, fun a ha _ => by simp [H.set, ha], Nat.le_refl _, fun a ha => by
    have : a ≠ p := by simp only [H.set] at ha; omega
    simp only [H.set, this, if_false]; exact hf a ha⟩

theorem failed_refl (hf : Fresh h) : Failed h h := ⟨rfl, Nat.le_refl _, hf⟩

theorem pstring_agrees {buf : List UInt8} {p i : Nat} {it : Item V} (hf : Fresh h) (hp : h.cells p = some (.item it)) (hr : Raw it) :
    Agrees ok h p it ((parseString buf i).map fun x => (.str x.1, x.2)) (pstring ok buf h p i) := by
  have hpl : p < h.used := lt_used hf (by simp [hp])
  unfold parseString pstring
  cases h1 : rd buf i with
  | error x =>
    have : x = .read := by
      unfold rd at h1; split at h1 <;> cases h1; rfl
    subst this
    exact trivial
  | ok q =>
    dsimp only
    by_cases hq : q ≠ 0x22
    · rw [if_pos hq, if_pos hq]; exact ⟨h, rfl, failed_refl hf⟩
    · rw [if_neg hq, if_neg hq]
      cases h2 : scan buf (i + 1) 0 with
      | error x =>
        cases x with
        | reject => exact ⟨h, rfl, failed_refl hf⟩
        | read => trivial
        | write => trivial
        | stuck => trivial
      | ok y =>
        obtain ⟨e, sk⟩ := y
        dsimp only
        unfold alloc
        by_cases ho : ok h.used = true
        · rw [if_pos ho]
          dsimp only
          have hne : p ≠ h.used := by omega
          have allok : AllOk ok h { used := h.used + 1, cells := fun b => if b = h.used then some (.bytes []) else h.cells b } := by
            intro k x y; dsimp only at y
            rw [show k = h.used by omega]; exact ho
          cases h3 : decode buf e (e - i - sk + 1) (i + 1) [] with
          | error x =>
            cases x with
            | reject =>
              refine ⟨{ used := h.used + 1, cells := h.cells }, ?_, rfl, by dsimp only; omega, fun a ha => hf a (by dsimp only at ha; omega)⟩
              simp only [free, if_true, Option.isSome_some, H.set, Option.map_some]
              congr 3
              funext b
              by_cases hb : b = h.used
              · simp [hb, hf h.used (Nat.le_refl _)]
              · simp [hb]
            | read => trivial
            | write => trivial
            | stuck => trivial
          | ok out =>
            dsimp only
            cases h4 : emit (e - i - sk + 1) out [0] with
            | error x =>
              have : x = .write := by
                unfold emit at h4; split at h4 <;> cases h4; rfl
              subst this
              exact trivial
            | ok z =>
              dsimp only
              refine .inr ⟨{ used := h.used + 1, cells := fun b => if b = p then some (.item { it with ty := .string, vstr := some h.used }) else
                if b = h.used then some (.bytes out) else h.cells b }, { it with ty := .string, vstr := some h.used }, [h.used], ?_, ?_, ?_⟩
              · simp only [upd, H.set, hne, if_false, hp, Option.map_some]
                congr 4
                funext b
                by_cases x : b = p <;> by_cases y : b = h.used <;> simp [x, y]
              · refine ⟨by simp, rfl, rfl, ⟨⟨rfl, h.used, rfl, by simp [hne.symm], rfl⟩, hr.2⟩, by simp, by simp, ?_, by dsimp only; omega, ?_⟩
                · intro a x y; simp at y; simp [x, y]
                · intro a ha; dsimp only at ha ⊢
                  rw [if_neg (by omega), if_neg (by omega)]; exact hf a (by omega)
              · intro k x y; dsimp only at y
                rw [show k = h.used by omega]; exact ho
        · rw [if_neg ho]
          dsimp only
          have hfail : Failed h { h with used := h.used + 1 } := ⟨rfl, by dsimp only; omega, fun a ha => hf a (by dsimp only at ha; omega)⟩
          have hnot : ¬ AllOk ok h { h with used := h.used + 1 } := fun hc => ho (hc h.used (Nat.le_refl _) (by dsimp only; omega))
          cases h3 : decode buf e (e - i - sk + 1) (i + 1) [] with
          | error x =>
            cases x with
            | reject => exact ⟨_, rfl, hfail⟩
            | read => trivial
            | write => trivial
            | stuck => trivial
          | ok out =>
            dsimp only
            cases h4 : emit (e - i - sk + 1) out [0] with
            | error x =>
              have : x = .write := by
                unfold emit at h4; split at h4 <;> cases h4; rfl
              subst this
              exact trivial
            | ok z => exact .inl ⟨_, rfl, hfail, hnot⟩

/-! ### The loops -/

/-- The same as `Agrees` for the loops. -/
def LoopAgrees {α : Type} (ok : Nat → Bool) (h0 : H V) (wrap : α → Option (List UInt8) × J V) (r : R (List α × Nat)) (o : Option (Option (Nat × Nat × Nat) × H V)) : Prop :=
  match r with
  | .error .reject => ∃ h', o = some (none, h') ∧ Failed h0 h'
  | .error _ => True
  | .ok (xs, k) =>
    (∃ h', o = some (none, h') ∧ Failed h0 h' ∧ ¬ AllOk ok h0 h') ∨
      (∃ h' f cur, o = some (some (k, f, cur), h') ∧ Complete h0 h' f cur (xs.map wrap) ∧ AllOk ok h0 h')

theorem LoopAgrees.of_fail {α : Type} {wrap : α → Option (List UInt8) × J V} (r : R (List α × Nat)) {o : Option (Option (Nat × Nat × Nat) × H V)} (e : o = some (none, h'))
    (f : Failed h0 h') (n : ¬ AllOk ok h0 h') : LoopAgrees ok h0 wrap r o := by
  match r with
  | .error .reject => exact ⟨h', e, f⟩
  | .error .read => trivial
  | .error .write => trivial
  | .error .stuck => trivial
  | .ok (xs, k) => exact .inl ⟨h', e, f, n⟩

theorem Agrees.of_fail {p : Nat} {it : Item V} (r : R (J V × Nat)) {o : Out V} (e : o = some (none, h')) (f : Failed h h') (n : ¬ AllOk ok h h') : Agrees ok h p it r o := by
  match r with
  | .error .reject => exact ⟨h', e, f⟩
  | .error .read => trivial
  | .error .write => trivial
  | .error .stuck => trivial
  | .ok (xs, k) => exact .inl ⟨h', e, f, n⟩

/-- What is assumed of the function that parses an element. -/
def ValOk (ok : Nat → Bool) (cval : Nat → R (J V × Nat)) (val : H V → Nat → Nat → Out V) : Prop :=
  ∀ (h : H V) (p i : Nat) (it : Item V), Fresh h → h.cells p = some (.item it) → Raw it → Agrees ok h p it (cval i) (val h p i)

theorem Open.used_le {f cur : Nat} {ys : List (Option (List UInt8) × J V)} {nm : Option (List UInt8)} {it : Item V} (ho : Open h0 h f cur ys nm it) :
    h0.used ≤ h.used ∧ Fresh h ∧ h.cells cur = some (.item it) ∧ Raw it := by
  obtain ⟨S, Sn, a1, a2, a3, a4, a5, a6, a7, a8, a9, a10⟩ := ho
  exact ⟨a9, a10, a2, a3⟩

theorem newItem_ok (ho : ok h.used = true) :
    newItem ok h = (some h.used, { used := h.used + 1, cells := fun b => if b = h.used then some (.item ⟨.invalid, none, none, none, none, none⟩) else h.cells b }) := by
  simp [newItem, alloc, ho]

theorem newItem_fail (ho : ¬ ok h.used = true) : newItem ok h = (none, { h with used := h.used + 1 }) := by
  simp [newItem, alloc, ho]

theorem elems_agrees {cval : Nat → R (J V × Nat)} {val : H V → Nat → Nat → Out V} (hv : ValOk ok cval val) (buf : List UInt8) (hf0 : Fresh h0) :
    ∀ (fuel : Nat) (h : H V) (i : Nat) (hd : Option (Nat × Nat)) (acc : List (J V)), Stand h0 h hd (acc.map fun x => (none, x)) → AllOk ok h0 h →
      LoopAgrees ok h0 (fun x => (none, x)) (CJson.elems cval buf fuel i acc) (elems ok val buf fuel h i hd) := by
  intro fuel
  induction fuel with
  | zero => intro h i hd acc _ _; trivial
  | succ fuel ih =>
    intro h i hd acc hs hok
    unfold elems CJson.elems
    by_cases ho : ok h.used = true
    · rw [newItem_ok ho]
      dsimp only
      obtain ⟨f, h1, it, e1, O1, u1⟩ := hs.link
      rw [e1]
      simp only [Option.bind_some]
      obtain ⟨le1, fr1, c1, r1⟩ := O1.used_le
      have hok1 : AllOk ok h0 h1 := hok.trans fun k x y => by rw [show k = h.used by omega]; exact ho
      have hag := hv h1 h.used (skipWs buf (i + 1)) it fr1 c1 r1
      cases hc : cval (skipWs buf (i + 1)) with
      | error x =>
        rw [hc] at hag
        cases x with
        | reject =>
          obtain ⟨h2, e2, F2⟩ := hag
          rw [e2]
          obtain ⟨h3, e3, F3, -⟩ := (O1.failed F2).drop (α := Nat × Nat × Nat) hf0
          exact ⟨h3, e3, F3⟩
        | read => trivial
        | write => trivial
        | stuck => trivial
      | ok y =>
        obtain ⟨v, j⟩ := y
        rw [hc] at hag
        rcases hag with ⟨h2, e2, F2, n2⟩ | ⟨h2, it2, S2, e2, D2, ok2⟩
        · rw [e2]
          obtain ⟨h3, e3, F3, u3⟩ := (O1.failed F2).drop (α := Nat × Nat × Nat) hf0
          exact LoopAgrees.of_fail _ e3 F3 (not_allOk n2 le1 (by omega))
        · rw [e2]
          have C2 := O1.done D2
          have hok2 := hok1.trans ok2
          simp only [Option.bind_some]
          by_cases hk : isAt buf (skipWs buf j) 0x2C = true
          · rw [if_pos hk, if_pos hk]
            refine ih h2 _ _ (acc ++ [v]) ?_ hok2
            simpa [Stand] using C2
          · rw [if_neg hk, if_neg hk]
            by_cases hk2 : isAt buf (skipWs buf j) 0x5D = true
            · rw [if_pos hk2, if_pos hk2]
              refine .inr ⟨h2, f, h.used, rfl, ?_, hok2⟩
              simpa using C2
            · rw [if_neg hk2, if_neg hk2]
              obtain ⟨h3, e3, F3, u3⟩ := C2.drop (α := Nat × Nat × Nat) hf0
              exact ⟨h3, e3, F3⟩
    · rw [newItem_fail ho]
      dsimp only
      obtain ⟨h3, e3, F3, u3⟩ := hs.drop (α := Nat × Nat × Nat) hf0
      have := hs.used
      exact LoopAgrees.of_fail _ e3 F3 fun hc => ho (hc h.used this (by omega))

theorem members_agrees {cval : Nat → R (J V × Nat)} {val : H V → Nat → Nat → Out V} (hv : ValOk ok cval val) (buf : List UInt8) (hf0 : Fresh h0) :
    ∀ (fuel : Nat) (h : H V) (i : Nat) (hd : Option (Nat × Nat)) (acc : List (List UInt8 × J V)), Stand h0 h hd (acc.map fun x => (some x.1, x.2)) → AllOk ok h0 h →
      LoopAgrees ok h0 (fun x => (some x.1, x.2)) (CJson.members cval buf fuel i acc) (members ok val buf fuel h i hd) := by
  intro fuel
  induction fuel with
  | zero => intro h i hd acc _ _; trivial
  | succ fuel ih =>
    intro h i hd acc hs hok
    unfold members CJson.members
    by_cases ho : ok h.used = true
    · rw [newItem_ok ho]
      dsimp only
      obtain ⟨f, h1, it, e1, O1, u1⟩ := hs.link
      rw [e1]
      simp only [Option.bind_some]
      obtain ⟨le1, fr1, c1, r1⟩ := O1.used_le
      have hok1 : AllOk ok h0 h1 := hok.trans fun k x y => by rw [show k = h.used by omega]; exact ho
      have hag := pstring_agrees (ok := ok) (buf := buf) (i := skipWs buf (i + 1)) fr1 c1 r1
      cases hc : parseString buf (skipWs buf (i + 1)) with
      | error x =>
        rw [hc] at hag
        cases x with
        | reject =>
          obtain ⟨h2, e2, F2⟩ := hag
          rw [e2]
          obtain ⟨h3, e3, F3, -⟩ := (O1.failed F2).drop (α := Nat × Nat × Nat) hf0
          exact ⟨h3, e3, F3⟩
        | read => trivial
        | write => trivial
        | stuck => trivial
      | ok y =>
        obtain ⟨name, j⟩ := y
        rw [hc] at hag
        rcases hag with ⟨h2, e2, F2, n2⟩ | ⟨h2, it2, S2, e2, D2, ok2⟩
        · rw [e2]
          obtain ⟨h3, e3, F3, u3⟩ := (O1.failed F2).drop (α := Nat × Nat × Nat) hf0
          exact LoopAgrees.of_fail _ e3 F3 (not_allOk n2 le1 (by omega))
        · rw [e2]
          have hok2 := hok1.trans ok2
          obtain ⟨g2, itn, en, O2, un⟩ := O1.named D2
          obtain ⟨le2, fr2, c2, r2⟩ := O2.used_le
          have hokg : AllOk ok h0 g2 := fun k x y => hok2 k x (by omega)
          simp only [Option.bind_some, en]
          by_cases hk : isAt buf (skipWs buf j) 0x3A = true
          · rw [if_pos hk, if_pos hk]
            have hag := hv g2 h.used (skipWs buf (skipWs buf j + 1)) itn fr2 c2 r2
            cases hc : cval (skipWs buf (skipWs buf j + 1)) with
            | error x =>
              rw [hc] at hag
              cases x with
              | reject =>
                obtain ⟨h4, e4, F4⟩ := hag
                rw [e4]
                obtain ⟨h3, e3, F3, -⟩ := (O2.failed F4).drop (α := Nat × Nat × Nat) hf0
                exact ⟨h3, e3, F3⟩
              | read => trivial
              | write => trivial
              | stuck => trivial
            | ok y =>
              obtain ⟨v, j'⟩ := y
              rw [hc] at hag
              rcases hag with ⟨h4, e4, F4, n4⟩ | ⟨h4, it4, S4, e4, D4, ok4⟩
              · rw [e4]
                obtain ⟨h3, e3, F3, u3⟩ := (O2.failed F4).drop (α := Nat × Nat × Nat) hf0
                exact LoopAgrees.of_fail _ e3 F3 (not_allOk n4 le2 (by omega))
              · rw [e4]
                have C4 := O2.done D4
                have hok4 := hokg.trans ok4
                simp only [Option.bind_some]
                by_cases hk : isAt buf (skipWs buf j') 0x2C = true
                · rw [if_pos hk, if_pos hk]
                  refine ih h4 _ _ (acc ++ [(name, v)]) ?_ hok4
                  simpa [Stand] using C4
                · rw [if_neg hk, if_neg hk]
                  by_cases hk2 : isAt buf (skipWs buf j') 0x7D = true
                  · rw [if_pos hk2, if_pos hk2]
                    refine .inr ⟨h4, f, h.used, rfl, ?_, hok4⟩
                    simpa using C4
                  · rw [if_neg hk2, if_neg hk2]
                    obtain ⟨h3, e3, F3, u3⟩ := C4.drop (α := Nat × Nat × Nat) hf0
                    exact ⟨h3, e3, F3⟩
          · rw [if_neg hk, if_neg hk]
            obtain ⟨h3, e3, F3, u3⟩ := O2.drop (α := Nat × Nat × Nat) hf0
            exact ⟨h3, e3, F3⟩
    · rw [newItem_fail ho]
      dsimp only
      obtain ⟨h3, e3, F3, u3⟩ := hs.drop (α := Nat × Nat × Nat) hf0
      have := hs.used
      exact LoopAgrees.of_fail _ e3 F3 fun hc => ho (hc h.used this (by omega))

theorem finish_none {p k : Nat} {it : Item V} {ty : Ty V} {j : J V} (hf : Fresh h) (hp : h.cells p = some (.item it)) (hv : ∀ g : H V, Val g { it with ty := ty, child := none } j []) :
    Agrees ok h p it (.ok (j, k)) (finish h p ty none k) := by
  refine .inr ⟨h.set p (some (.item { it with ty := ty, child := none })), { it with ty := ty, child := none }, [], by simp [finish, upd, hp], ?_, .refl⟩
  have hpl : p < h.used := lt_used hf (by simp [hp])
  exact ⟨by simp [H.set], rfl, rfl, hv _, by simp, by simp, fun a ha _ => by simp [H.set, ha], Nat.le_refl _, fun a ha => by
    have : a ≠ p := by simp only [H.set] at ha; omega
    simp only [H.set, this, if_false]; exact hf a ha⟩

theorem array_agrees {cval : Nat → R (J V × Nat)} {val : H V → Nat → Nat → Out V} (hv : ValOk ok cval val) (buf : List UInt8) :
    ValOk ok (CJson.array cval buf) (array ok val buf) := by
  intro h p i it hf hp hr
  unfold CJson.array array
  dsimp only
  by_cases hk : isAt buf (skipWs buf (i + 1)) 0x5D = true
  · rw [if_pos hk, if_pos hk]
    exact finish_none hf hp fun g => ⟨rfl, hr.1, .nil _⟩
  · rw [if_neg hk, if_neg hk]
    by_cases hl : buf.length ≤ skipWs buf (i + 1)
    · rw [if_pos hl, if_pos hl]
      exact ⟨h, rfl, failed_refl hf⟩
    · rw [if_neg hl, if_neg hl]
      have hag := elems_agrees hv buf hf (buf.length + 1) h (skipWs buf (i + 1) - 1) none [] ⟨rfl, failed_refl hf⟩ .refl
      cases hc : CJson.elems cval buf (buf.length + 1) (skipWs buf (i + 1) - 1) [] with
      | error x =>
        rw [hc] at hag
        cases x with
        | reject => obtain ⟨h2, e2, F2⟩ := hag; rw [e2]; exact ⟨h2, rfl, F2⟩
        | read => trivial
        | write => trivial
        | stuck => trivial
      | ok y =>
        obtain ⟨xs, k⟩ := y
        rw [hc] at hag
        rcases hag with ⟨h2, e2, F2, n2⟩ | ⟨h2, f, cur, e2, C2, ok2⟩
        · rw [e2]; exact .inl ⟨h2, rfl, F2, n2⟩
        · rw [e2]
          simp only [Option.bind_some]
          obtain ⟨h3, S, e3, u3, a1, a2, a3, a4, a5, a6, a7⟩ := C2.finish (k := k + 1) hf hp .array
          exact .inr ⟨h3, _, S, e3, ⟨a1, rfl, rfl, ⟨rfl, hr.1, a2⟩, a3, a4, a5, a6, a7⟩, fun k x y => ok2 k x (by omega)⟩

theorem object_agrees {cval : Nat → R (J V × Nat)} {val : H V → Nat → Nat → Out V} (hv : ValOk ok cval val) (buf : List UInt8) :
    ValOk ok (CJson.object cval buf) (object ok val buf) := by
  intro h p i it hf hp hr
  unfold CJson.object object
  dsimp only
  by_cases hk : isAt buf (skipWs buf (i + 1)) 0x7D = true
  · rw [if_pos hk, if_pos hk]
    exact finish_none hf hp fun g => ⟨rfl, hr.1, .nil _⟩
  · rw [if_neg hk, if_neg hk]
    by_cases hl : buf.length ≤ skipWs buf (i + 1)
    · rw [if_pos hl, if_pos hl]
      exact ⟨h, rfl, failed_refl hf⟩
    · rw [if_neg hl, if_neg hl]
      have hag := members_agrees hv buf hf (buf.length + 1) h (skipWs buf (i + 1) - 1) none [] ⟨rfl, failed_refl hf⟩ .refl
      cases hc : CJson.members cval buf (buf.length + 1) (skipWs buf (i + 1) - 1) [] with
      | error x =>
        rw [hc] at hag
        cases x with
        | reject => obtain ⟨h2, e2, F2⟩ := hag; rw [e2]; exact ⟨h2, rfl, F2⟩
        | read => trivial
        | write => trivial
        | stuck => trivial
      | ok y =>
        obtain ⟨xs, k⟩ := y
        rw [hc] at hag
        rcases hag with ⟨h2, e2, F2, n2⟩ | ⟨h2, f, cur, e2, C2, ok2⟩
        · rw [e2]; exact .inl ⟨h2, rfl, F2, n2⟩
        · rw [e2]
          simp only [Option.bind_some]
          obtain ⟨h3, S, e3, u3, a1, a2, a3, a4, a5, a6, a7⟩ := C2.finish (k := k + 1) hf hp .object
          exact .inr ⟨h3, _, S, e3, ⟨a1, rfl, rfl, ⟨rfl, hr.1, a2⟩, a3, a4, a5, a6, a7⟩, fun k x y => ok2 k x (by omega)⟩

theorem value_agrees (strtod : List UInt8 → Nat × V) (buf : List UInt8) (n : Nat) : ValOk ok (CJson.value strtod buf n) (value ok strtod buf n) := by
  induction n with
  | zero =>
    intro h p i it hf hp hr
    unfold CJson.value value
    split
    · exact leaf_agrees hf hp fun g => ⟨⟨rfl, hr.1, rfl⟩, hr.2⟩
    · split
      · exact leaf_agrees hf hp fun g => ⟨⟨rfl, hr.1, rfl⟩, hr.2⟩
      · split
        · exact leaf_agrees hf hp fun g => ⟨⟨rfl, hr.1, rfl⟩, hr.2⟩
        · cases buf[i]? with
          | none => exact ⟨h, rfl, failed_refl hf⟩
          | some b =>
            dsimp only
            split
            · have := pstring_agrees (ok := ok) (buf := buf) (i := i) hf hp hr
              cases hc : parseString buf i with
              | error x => rw [hc] at this; exact this
              | ok y => rw [hc] at this; exact this
            · split
              · unfold parseNumber
                dsimp only
                split
                · exact ⟨h, rfl, failed_refl hf⟩
                · exact leaf_agrees hf hp fun g => ⟨⟨rfl, hr.1, rfl⟩, hr.2⟩
              · split
                · exact ⟨h, rfl, failed_refl hf⟩
                · split <;> exact ⟨h, rfl, failed_refl hf⟩
  | succ n ih =>
    intro h p i it hf hp hr
    unfold CJson.value value
    split
    · exact leaf_agrees hf hp fun g => ⟨⟨rfl, hr.1, rfl⟩, hr.2⟩
    · split
      · exact leaf_agrees hf hp fun g => ⟨⟨rfl, hr.1, rfl⟩, hr.2⟩
      · split
        · exact leaf_agrees hf hp fun g => ⟨⟨rfl, hr.1, rfl⟩, hr.2⟩
        · cases buf[i]? with
          | none => exact ⟨h, rfl, failed_refl hf⟩
          | some b =>
            dsimp only
            split
            · have := pstring_agrees (ok := ok) (buf := buf) (i := i) hf hp hr
              cases hc : parseString buf i with
              | error x => rw [hc] at this; exact this
              | ok y => rw [hc] at this; exact this
            · split
              · unfold parseNumber
                dsimp only
                split
                · exact ⟨h, rfl, failed_refl hf⟩
                · exact leaf_agrees hf hp fun g => ⟨⟨rfl, hr.1, rfl⟩, hr.2⟩
              · split
                · exact array_agrees ih buf h p i it hf hp hr
                · split
                  · exact object_agrees ih buf h p i it hf hp hr
                  · exact ⟨h, rfl, failed_refl hf⟩

end Verif.CJsonMem
