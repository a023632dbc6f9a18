import Verif.Spec.CJsonRef
import Verif.Proofs.CJsonMem
import Verif.Proofs.CJsonNamed
import Verif.Proofs.CJsonDup
import Verif.Proofs.CJsonParseRing
/-
Helper lemmas for C125. Deleting with regard to the bits is deleting in a memory in which what is not owned is not there.
-/
namespace Verif.CJsonMem

variable {V : Type} {h h' : H V} {b : Bits}

/-- The memory with the pointers removed that own nothing. -/
def mask (b : Bits) (h : H V) : H V := ⟨h.used, fun a => match h.cells a with
  | some (.item it) => some (.item { it with child := if b.ref a then none else it.child, vstr := if b.ref a then none else it.vstr, str := if b.const a then none else it.str })
  | c => c⟩

theorem mask_item {a : Nat} {it : Item V} (e : h.cells a = some (.item it)) :
    (mask b h).cells a = some (.item { it with child := if b.ref a then none else it.child, vstr := if b.ref a then none else it.vstr, str := if b.const a then none else it.str }) := by
  simp [mask, e]

theorem mask_isSome (a : Nat) : ((mask b h).cells a).isSome = (h.cells a).isSome := by
  unfold mask
  dsimp only
  split
  · next e => simp [e]
  · rfl

theorem mask_none (a : Nat) : mask b (h.set a none) = (mask b h).set a none := by
  unfold mask H.set
  congr 1
  funext x
  dsimp only
  by_cases hx : x = a <;> simp [hx]

theorem mask_free (a : Nat) : (free h a).map (mask b) = free (mask b h) a := by
  unfold free
  rw [mask_isSome]
  split
  · simp [mask_none]
  · rfl

theorem mask_freeOpt (p : Option Nat) : (freeOpt h p).map (mask b) = freeOpt (mask b h) p := by
  cases p with
  | none => rfl
  | some a => exact mask_free a

theorem mask_noitem {a : Nat} (e : item h a = none) : item (mask b h) a = none := by
  unfold item at e ⊢
  unfold mask
  dsimp only
  split at e
  · cases e
  · next hn =>
    split
    · next it hc =>
      split at hc
      · next it' hi => exact (hn it' hi).elim
      · next hi => exact (hn it hc).elim
    · rfl

theorem mask_delete : ∀ (n : Nat) (h : H V) (p : Option Nat), (deleteBits b n h p).map (mask b) = delete n (mask b h) p := by
  intro n
  induction n with
  | zero => intro h p; cases p <;> rfl
  | succ n ih =>
    intro h p
    cases p with
    | none => rfl
    | some p =>
      have bindmap : ∀ {α β : Type} (o : Option (H V)) (f : H V → Option (H V)) (g : H V → Option (H V)) (o' : Option (H V)), o.map (mask b) = o' → (∀ x, (f x).map (mask b) = g (mask b x)) →
          (o.bind f).map (mask b) = o'.bind g := by
        intro _ _ o f g o' e1 e2
        subst e1
        cases o with
        | none => rfl
        | some x => exact e2 x
      rw [deleteBits, delete]
      cases hi : item h p with
      | none => rw [mask_noitem hi]; rfl
      | some it =>
        have hc : h.cells p = some (.item it) := by
          unfold item at hi
          split at hi
          · next e => cases hi; exact e
          · cases hi
        rw [show item (mask b h) p = some { it with child := if b.ref p then none else it.child, vstr := if b.ref p then none else it.vstr, str := if b.const p then none else it.str } by
          simp [item, mask_item hc], Option.bind_some, Option.bind_some]
        refine bindmap (α := Unit) (β := Unit) _ _ _ _ ?_ fun h1 => bindmap (α := Unit) (β := Unit) _ _ _ _ ?_ fun h2 => bindmap (α := Unit) (β := Unit) _ _ _ _ ?_ fun h3 =>
          bindmap (α := Unit) (β := Unit) _ _ _ _ (mask_free p) fun h4 => ih h4 it.next
        · cases b.ref p with
          | true => simp only [if_true]; cases n <;> rfl
          | false => simp only [Bool.false_eq_true, if_false]; exact ih h it.child
        · cases b.ref p with
          | true => simp only [if_true]; rfl
          | false => simp only [Bool.false_eq_true, if_false]; exact mask_freeOpt _
        · cases b.const p with
          | true => simp only [if_true]; rfl
          | false => simp only [Bool.false_eq_true, if_false]; exact mask_freeOpt _

/-- Deleting only gives blocks back. -/
def Less (h h' : H V) : Prop := ∀ a, h'.cells a = h.cells a ∨ h'.cells a = none

theorem Less.refl (h : H V) : Less h h := fun _ => .inl rfl

theorem Less.trans {h1 h2 : H V} (x : Less h h1) (y : Less h1 h2) : Less h h2 := fun a => by
  rcases y a with e | e
  · rw [e]; exact x a
  · exact .inr e

theorem free_less {a : Nat} (e : free h a = some h') : Less h h' := by
  unfold free at e
  split at e
  · cases e
    intro x
    by_cases hx : x = a
    · right; simp [H.set, hx]
    · left; simp [H.set, hx]
  · cases e

theorem freeOpt_less {p : Option Nat} (e : freeOpt h p = some h') : Less h h' := by
  cases p with
  | none => cases e; exact Less.refl _
  | some a => exact free_less e

theorem deleteBits_less : ∀ (n : Nat) (h h' : H V) (p : Option Nat), deleteBits b n h p = some h' → Less h h' := by
  intro n
  induction n with
  | zero => intro h h' p e; cases p with
    | none => cases e; exact Less.refl _
    | some p => cases e
  | succ n ih =>
    intro h h' p e
    cases p with
    | none => cases e; exact Less.refl _
    | some p =>
      rw [deleteBits] at e
      obtain ⟨it, -, e⟩ := Option.bind_eq_some_iff.mp e
      obtain ⟨h1, e1, e⟩ := Option.bind_eq_some_iff.mp e
      obtain ⟨h2, e2, e⟩ := Option.bind_eq_some_iff.mp e
      obtain ⟨h3, e3, e⟩ := Option.bind_eq_some_iff.mp e
      obtain ⟨h4, e4, e⟩ := Option.bind_eq_some_iff.mp e
      refine Less.trans (h1 := h1) ?_ (Less.trans (h1 := h2) ?_ (Less.trans (h1 := h3) ?_ ((free_less e4).trans (ih _ _ _ e))))
      · split at e1
        · cases e1; exact Less.refl _
        · exact ih _ _ _ e1
      · split at e2
        · cases e2; exact Less.refl _
        · exact freeOpt_less e2
      · split at e3
        · cases e3; exact Less.refl _
        · exact freeOpt_less e3

theorem OwnStr.mask {p : Option Nat} {S : List Nat} (hs : OwnStr h p S) : Str (mask b h) p S := by
  cases p with
  | none => exact hs
  | some a => exact ⟨hs.1, by rw [mask_isSome]; exact hs.2⟩

theorem Owns.mask {p : Option Nat} {S : List Nat} (ho : Owns b h p S) : Own (mask b h) p S := by
  induction ho with
  | nil => exact .nil
  | @item p it Sn Sv Sc S a1 a2 a3 a4 _ _ ih1 ih2 =>
    exact .cons (mask_item a1) (by simpa only using a3.mask) (by simpa [a2] using a4.mask) (by simpa [a2] using ih1) ih2
  | @ref p it Sn S a1 a2 a3 _ ih =>
    have := Own.cons (h := CJsonMem.mask b h) (mask_item a1) (Sn := Sn) (Sv := []) (Sc := []) (S := S) (by simpa only using a3.mask) (by simp [a2]; rfl) (by simp [a2]; exact .nil) ih
    simpa using this

theorem delete_owns {p : Option Nat} {S : List Nat} (ho : Owns b h p S) (hn : S.Nodup) (n : Nat) (hl : S.length ≤ n) :
    ∃ h', deleteBits b n h p = some h' ∧ ∀ a, h'.cells a = if a ∈ S then none else h.cells a := by
  obtain ⟨g, e, G⟩ := delete_own ho.mask n (mask b h) hn (fun _ _ => rfl) hl
  rw [← mask_delete] at e
  obtain ⟨h', e1, rfl⟩ := Option.map_eq_some_iff.mp e
  refine ⟨h', e1, fun a => ?_⟩
  have h1 := G.2 a
  have h2 := congrArg Option.isSome h1
  rw [mask_isSome] at h2
  rcases deleteBits_less n h h' p e1 a with h3 | h3
  · split
    · next ha => rw [if_pos ha] at h2; simpa using h2
    · exact h3
  · split
    · exact h3
    · next ha =>
      rw [if_neg ha, mask_isSome, h3] at h2
      rw [h3]
      cases hc : h.cells a with
      | none => rfl
      | some c => rw [hc] at h2; cases h2

theorem createRef_ok {ok : Nat → Bool} {x : Nat} {it : Item V} (hx : h.cells x = some (.item it)) (hf : Fresh h) (hok : ok h.used = true) :
    ∃ h' b', createRef ok b h x = some (some h.used, h', b') ∧ h'.used = h.used + 1 ∧ h'.cells h.used = some (.item { it with str := none, next := none, prev := none }) ∧
      (∀ a, a ≠ h.used → h'.cells a = h.cells a) ∧ b'.ref h.used = true ∧ ∀ a, a ≠ h.used → b'.ref a = b.ref a ∧ b'.const a = b.const a := by
  have hxu : x ≠ h.used := fun e => by rw [e, hf _ (Nat.le_refl _)] at hx; cases hx
  unfold createRef
  rw [newItem_ok hok]
  dsimp only
  rw [item_eq (it := it) (by simp [hxu, hx]), Option.bind_some, upd_eq (it := ⟨.invalid, none, none, none, none, none⟩) (by simp)]
  exact ⟨_, _, rfl, rfl, set_self _ _ _, fun a ha => by simp [H.set, ha], if_pos rfl, fun a ha => ⟨if_neg ha, if_neg ha⟩⟩

theorem OwnStr.congr {p : Option Nat} {S : List Nat} (hs : OwnStr h p S) (he : ∀ a ∈ S, h'.cells a = h.cells a) : OwnStr h' p S := by
  cases p with
  | none => exact hs
  | some a => obtain ⟨rfl, e⟩ := hs; exact ⟨rfl, by rw [he a (by simp)]; exact e⟩

theorem Owns.congr {b' : Bits} {p : Option Nat} {S : List Nat} (ho : Owns b h p S) : (∀ a ∈ S, h'.cells a = h.cells a ∧ b'.ref a = b.ref a ∧ b'.const a = b.const a) → Owns b' h' p S := by
  induction ho with
  | nil => intro _; exact .nil
  | @item p it Sn Sv Sc S a1 a2 a3 a4 _ _ ih1 ih2 =>
    intro he
    obtain ⟨c1, c2, c3⟩ := he p (by simp)
    refine .item (by rw [c1]; exact a1) (by rw [c2]; exact a2) ?_ (a4.congr fun a ha => (he a (by simp [ha])).1) (ih1 fun a ha => he a (by simp [ha])) (ih2 fun a ha => he a (by simp [ha]))
    rw [c3]
    exact a3.congr fun a ha => (he a (by simp [ha])).1
  | @ref p it Sn S a1 a2 a3 _ ih =>
    intro he
    obtain ⟨c1, c2, c3⟩ := he p (by simp)
    refine .ref (by rw [c1]; exact a1) (by rw [c2]; exact a2) ?_ (ih fun a ha => he a (by simp [ha]))
    rw [c3]
    exact a3.congr fun a ha => (he a (by simp [ha])).1

theorem OwnStr.some_of_mem {p : Option Nat} {S : List Nat} (hs : OwnStr h p S) : ∀ a ∈ S, (h.cells a).isSome = true := by
  cases p with
  | none => intro a ha; rw [show S = [] from hs] at ha; cases ha
  | some b => obtain ⟨rfl, e⟩ := hs; intro a ha; simp only [List.mem_singleton] at ha; rw [ha]; exact e

theorem Owns.some_of_mem {p : Option Nat} {S : List Nat} (ho : Owns b h p S) : ∀ a ∈ S, (h.cells a).isSome = true := by
  induction ho with
  | nil => intro a ha; cases ha
  | item a1 a2 a3 a4 _ _ ih1 ih2 =>
    intro a ha
    simp only [List.mem_cons, List.mem_append] at ha
    rcases ha with rfl | ((ha | ha) | ha) | ha
    · simp [a1]
    · exact a3.some_of_mem a ha
    · exact a4.some_of_mem a ha
    · exact ih1 a ha
    · exact ih2 a ha
  | ref a1 a2 a3 _ ih =>
    intro a ha
    simp only [List.mem_cons, List.mem_append] at ha
    rcases ha with rfl | ha | ha
    · simp [a1]
    · exact a3.some_of_mem a ha
    · exact ih a ha

theorem owns_run {cs : List Nat} : ∀ {pv : Option Nat} {S : List Nat}, Run h pv cs none → Owns b h (headOr cs none) S → ∀ a ∈ cs, a ∈ S := by
  induction cs with
  | nil => intro _ _ _ _ a ha; cases ha
  | cons c cs ih =>
    rintro pv S ⟨⟨it, e, -, hn⟩, run⟩ ho a ha
    cases ho with
    | item a1 a2 a3 a4 a5 a6 =>
      rw [a1] at e
      cases e
      rw [hn] at a6
      rcases List.mem_cons.mp ha with rfl | ha
      · simp
      · simp [ih run a6 a ha]
    | ref a1 a2 a3 a4 =>
      rw [a1] at e
      cases e
      rw [hn] at a4
      rcases List.mem_cons.mp ha with rfl | ha
      · simp
      · simp [ih run a4 a ha]

/-- A list to which a reference was added owns the reference as well. -/
theorem owns_append {b' : Bits} {q : Nat} {itq : Item V} (hq : h'.cells q = some (.item itq)) (hqs : itq.str = none) (hqr : b'.ref q = true) {cs : List Nat} :
    ∀ {pv pv' : Option Nat} {S : List Nat}, Run h pv cs none → Owns b h (headOr cs none) S → S.Nodup → Run h' pv' (cs ++ [q]) none →
    (∀ a ∈ cs, ∀ it, h.cells a = some (.item it) → ∃ n r, h'.cells a = some (.item { it with next := n, prev := r })) → (∀ a ∈ S, a ∉ cs → h'.cells a = h.cells a) →
    (∀ a ∈ S, b'.ref a = b.ref a ∧ b'.const a = b.const a) → Owns b' h' (headOr cs (some q)) (S ++ [q]) := by
  induction cs with
  | nil =>
    intro pv pv' S _ ho _ run' _ _ _
    cases ho
    obtain ⟨⟨it, e, -, hn⟩, -⟩ := run'
    rw [hq] at e
    cases e
    have := Owns.ref (b := b') hq hqr (Sn := []) (S := []) (by rw [hqs]; split <;> rfl) (by rw [show itq.next = none from hn]; exact .nil)
    simpa [headOr] using this
  | cons c cs ih =>
    rintro pv pv' S ⟨⟨it, e, -, hn⟩, run⟩ ho nd ⟨⟨it', e', -, hn'⟩, run'⟩ hl hk hb
    obtain ⟨n, r, e2⟩ := hl c (by simp) it e
    rw [e'] at e2
    have e2 : it' = { it with next := n, prev := r } := by
      injection e2 with e2
      injection e2
    subst e2
    have hn' : n = headOr cs (some q) := by
      have := hn'
      dsimp only at this
      rw [this]
      cases cs <;> rfl
    subst hn'
    have ne : ∀ a ∈ cs, ∀ it, h.cells a = some (.item it) → ∃ n r, h'.cells a = some (.item { it with next := n, prev := r }) := fun a ha => hl a (by simp [ha])
    cases ho with
    | @item _ it0 Sn Sv Sc S a1 a2 a3 a4 a5 a6 =>
      rw [a1] at e
      cases e
      rw [hn] at a6
      have top := owns_run run a6
      have nd1 : c ∉ Sn ++ Sv ++ Sc ++ S ∧ (Sn ++ Sv ++ Sc ++ S).Nodup := List.nodup_cons.mp nd
      have nd2 := List.nodup_append.mp nd1.2
      have same : ∀ a ∈ Sn ++ Sv ++ Sc, h'.cells a = h.cells a ∧ b'.ref a = b.ref a ∧ b'.const a = b.const a := fun a ha => by
        have ha' : a ∈ Sn ++ Sv ++ Sc ++ S := List.mem_append.mpr (.inl ha)
        refine ⟨hk a (List.mem_cons_of_mem _ ha') fun hc => ?_, hb a (List.mem_cons_of_mem _ ha')⟩
        rcases List.mem_cons.mp hc with rfl | hc
        · exact nd1.1 ha'
        · exact nd2.2.2 a ha a (top a hc) rfl
      have tail := ih run a6 nd2.2.1 run' ne (fun a ha hac => hk a (by simp [ha]) fun hc => by
        rcases List.mem_cons.mp hc with rfl | hc
        · exact nd1.1 (by simp [ha])
        · exact hac hc) (fun a ha => hb a (by simp [ha]))
      have := Owns.item (b := b') e' (by rw [(hb c (by simp)).1]; exact a2) (Sn := Sn) (Sv := Sv) (Sc := Sc) (S := S ++ [q])
        (by rw [(hb c (by simp)).2]; exact a3.congr fun a ha => (same a (by simp [ha])).1) (a4.congr fun a ha => (same a (by simp [ha])).1) (a5.congr fun a ha => same a (by simp [ha])) tail
      simpa [headOr] using this
    | @ref _ it0 Sn S a1 a2 a3 a6 =>
      rw [a1] at e
      cases e
      rw [hn] at a6
      have top := owns_run run a6
      have nd1 : c ∉ Sn ++ S ∧ (Sn ++ S).Nodup := List.nodup_cons.mp nd
      have nd2 := List.nodup_append.mp nd1.2
      have same : ∀ a ∈ Sn, h'.cells a = h.cells a := fun a ha => by
        have ha' : a ∈ Sn ++ S := List.mem_append.mpr (.inl ha)
        refine hk a (List.mem_cons_of_mem _ ha') fun hc => ?_
        rcases List.mem_cons.mp hc with rfl | hc
        · exact nd1.1 ha'
        · exact nd2.2.2 a ha a (top a hc) rfl
      have tail := ih run a6 nd2.2.1 run' ne (fun a ha hac => hk a (by simp [ha]) fun hc => by
        rcases List.mem_cons.mp hc with rfl | hc
        · exact nd1.1 (by simp [ha])
        · exact hac hc) (fun a ha => hb a (by simp [ha]))
      have := Owns.ref (b := b') e' (by rw [(hb c (by simp)).1]; exact a2) (Sn := Sn) (S := S ++ [q])
        (by rw [(hb c (by simp)).2]; exact a3.congr fun a ha => same a ha) tail
      simpa [headOr] using this

/-- Adding an item changes of the array itself at most the pointer to its first child. -/
theorem addItem_par {p a : Nat} {cs : List Nat} {par : Item V} {r : Bool} (hr : Ring h p cs) (hp : a ∉ p :: cs) (ep : h.cells p = some (.item par)) (e : addItem h p a = some (r, h')) :
    ∃ c, h'.cells p = some (.item { par with child := c }) := by
  obtain ⟨nd, ⟨par', ep', hc⟩, run⟩ := hr
  rw [ep] at ep'
  cases ep'
  simp only [List.mem_cons, not_or] at hp
  have hpa : p ≠ a := fun e => hp.1 e.symm
  unfold addItem at e
  rw [if_neg hpa, item_eq ep, Option.bind_some] at e
  cases cs with
  | nil =>
    rw [hc] at e
    dsimp only [List.head?] at e
    rw [upd_eq ep, Option.bind_some] at e
    obtain ⟨h2, e2, e⟩ := Option.map_eq_some_iff.mp e
    cases e
    obtain ⟨i, -, rfl⟩ := upd_some e2
    exact ⟨some a, by rw [set_cells, if_neg hpa, set_self]⟩
  | cons c l =>
    rw [hc] at e
    dsimp only [List.head?] at e
    have hpl : p ∉ c :: l := (List.nodup_cons.mp nd).1
    obtain ⟨⟨itc, ec, pc, -⟩, -⟩ := run
    rw [item_eq ec, Option.bind_some, pc] at e
    cases hl : (c :: l).getLast? with
    | none => simp at hl
    | some y =>
      rw [hl] at e
      dsimp only at e
      obtain ⟨h1, e1, e⟩ := Option.bind_eq_some_iff.mp e
      obtain ⟨h2, e2, e⟩ := Option.bind_eq_some_iff.mp e
      obtain ⟨h3, e3, e⟩ := Option.map_eq_some_iff.mp e
      cases e
      obtain ⟨i1, -, rfl⟩ := upd_some e1
      obtain ⟨i2, -, rfl⟩ := upd_some e2
      obtain ⟨i3, -, rfl⟩ := upd_some e3
      have hy : p ≠ y := fun e => hpl (e ▸ List.mem_of_getLast? hl)
      have hpc : p ≠ c := fun e => hpl (by simp [e])
      exact ⟨par.child, by rw [set_cells, if_neg hpc, set_cells, if_neg hpa, set_cells, if_neg hy]; exact ep⟩

end Verif.CJsonMem
