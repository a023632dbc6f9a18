import Verif.Proofs.CJsonMem
import Verif.Props.CJson
import Verif.Props.Config
/-
C110: parsing a document takes what it needs, gives back the rest, and survives every failed allocation.
-/
namespace Verif.CJsonMem
open Verif.CJson

variable {V : Type} {ok : Nat → Bool}

theorem parseLen_cases (strtod : List UInt8 → Nat × V) (buf : List UInt8) (h : H V) (hf : Fresh h) (hb : ∀ x, CJson.parseLen strtod buf = .error x → x = .reject) :
    (∃ h', parseLen ok strtod buf h = some (none, h') ∧ Failed h h' ∧ ((∃ k, h.used ≤ k ∧ k < h'.used ∧ ok k = false) ∨ CJson.parseLen strtod buf = .error .reject)) ∨
    (∃ h' S j k, parseLen ok strtod buf h = some (some h.used, h') ∧ CJson.parseLen strtod buf = .ok (j, k) ∧ Doc h' h.used j S ∧ (∀ a ∈ S, h.used ≤ a) ∧
      (∀ a, a ∉ S → h'.cells a = h.cells a) ∧ h.used ≤ h'.used ∧ Fresh h' ∧ ∀ k, h.used ≤ k → k < h'.used → ok k = true) := by
  unfold parseLen
  unfold CJson.parseLen at hb ⊢
  by_cases he : buf = []
  · rw [if_pos he, if_pos he]
    exact .inl ⟨h, rfl, failed_refl hf, .inr rfl⟩
  · rw [if_neg he] at hb
    rw [if_neg he, if_neg he]
    by_cases ho : ok h.used = true
    · rw [newItem_ok ho]
      dsimp only
      generalize hg : ({ used := h.used + 1, cells := fun b => if b = h.used then some (.item ⟨.invalid, none, none, none, none, none⟩) else h.cells b } : H V) = g
      have gu : g.used = h.used + 1 := by rw [← hg]
      have gc : g.cells h.used = some (.item ⟨.invalid, none, none, none, none, none⟩) := by rw [← hg]; simp
      have gr : ∀ a, a ≠ h.used → g.cells a = h.cells a := by intro a ha; rw [← hg]; simp [ha]
      have gf : Fresh g := by intro a ha; rw [gr a (by omega)]; exact hf a (by omega)
      have gd : ∀ g', Failed g g' → ∃ h', (drop g' (some h.used) : Out V) = some (none, h') ∧ Failed h h' ∧ h'.used = g'.used := by
        intro g' F
        have hown : Own g' (some h.used) [h.used] := by
          have := Own.cons (h := g') (p := h.used) (Sn := []) (Sv := []) (Sc := []) (S := []) (it := ⟨.invalid, none, none, none, none, none⟩)
            (by rw [F.cells]; exact gc) rfl rfl .nil .nil
          simpa using this
        have := F.used
        exact drop_own hown (by simp) hf (by simp) (fun a ha => by rw [F.cells]; exact gr a (by simpa using ha)) (by omega) F.fresh
      have hag := value_agrees (ok := ok) strtod buf 1000 g h.used (skipWs buf (bom buf)) _ gf gc ⟨rfl, rfl⟩
      cases hc : CJson.value strtod buf 1000 (skipWs buf (bom buf)) with
      | error x =>
        have := hb x hc
        subst this
        rw [hc] at hag
        obtain ⟨g', e, F⟩ := hag
        rw [e]
        obtain ⟨h', e', F', -⟩ := gd g' F
        exact .inl ⟨h', e', F', .inr rfl⟩
      | ok y =>
        obtain ⟨j, k⟩ := y
        rw [hc] at hag
        rcases hag with ⟨g', e, F, n⟩ | ⟨g', it', S, e, D, o⟩
        · rw [e]
          obtain ⟨h', e', F', u'⟩ := gd g' F
          refine .inl ⟨h', e', F', .inl ?_⟩
          simp only [AllOk, not_forall] at n
          obtain ⟨k, n1, n2, n3⟩ := n
          exact ⟨k, by omega, by omega, by simpa using n3⟩
        · rw [e]
          have hu := D.used
          have hseg := D.val.seg (nm := none) (Sn := []) D.at_ ⟨D.str, rfl⟩
          rw [D.next] at hseg
          refine .inr ⟨g', h.used :: S, j, k, rfl, rfl, ⟨by simpa using hseg, ?_⟩, ?_, ?_, by omega, D.fresh, fun k x y => ?_⟩
          · rw [List.nodup_cons]; exact ⟨fun hx => by have := D.new _ hx; omega, D.nodup⟩
          · intro a ha
            rcases List.mem_cons.mp ha with rfl | ha
            · exact Nat.le_refl _
            · have := D.new a ha; omega
          · intro a ha
            simp only [List.mem_cons, not_or] at ha
            rw [D.rest a ha.1 ha.2]; exact gr a ha.1
          · by_cases hk : k = h.used
            · rw [hk]; exact ho
            · exact o k (by omega) y
    · rw [newItem_fail ho]
      dsimp only
      refine .inl ⟨_, rfl, ⟨rfl, by dsimp only; omega, fun a ha => hf a (by dsimp only at ha; omega)⟩, .inl ⟨h.used, Nat.le_refl _, by dsimp only; omega, by simpa using ho⟩⟩

/-- C110, parsing: whatever the text and whichever allocations fail, no block is read, written or freed that is not there. Either the result is NULL and the memory is as
it was, block by block, and then the text was not accepted or an allocation failed; or the document that the parser without memory reads lies at the address that
is returned, in new blocks that are each used once, everything else is as it was, and no allocation failed. -/
theorem c110_parse (strtod : List UInt8 → Nat × V) (text : List UInt8) (h : H V) (hf : Fresh h) :
    (∃ h', parse ok strtod text h = some (none, h') ∧ h'.cells = h.cells ∧ ((∃ k, h.used ≤ k ∧ k < h'.used ∧ ok k = false) ∨ CJson.parse strtod text = .error .reject)) ∨
    (∃ p h' S j k, parse ok strtod text h = some (some p, h') ∧ CJson.parse strtod text = .ok (j, k) ∧ Doc h' p j S ∧ (∀ a ∈ S, h.cells a = none) ∧
      (∀ a, a ∉ S → h'.cells a = h.cells a) ∧ ∀ k, h.used ≤ k → k < h'.used → ok k = true) := by
  rcases parseLen_cases (ok := ok) strtod (text.takeWhile (· ≠ 0) ++ [0]) h hf (fun x hx => c50_inside strtod text x hx) with ⟨h', a, b, c⟩ | ⟨h', S, j, k, a, b, c, d, e, f, g, i⟩
  · exact .inl ⟨h', a, b.cells, c⟩
  · exact .inr ⟨_, h', S, j, k, a, b, c, fun x hx => hf x (d x hx), e, i⟩

/-- C110, with enough memory: the parser returns a document exactly if the text is accepted. -/
theorem c110_enough (strtod : List UInt8 → Nat × V) (text : List UInt8) (h : H V) (hf : Fresh h) (hok : ∀ k, ok k = true) :
    (∃ p h', parse ok strtod text h = some (some p, h')) ↔ ∃ j k, CJson.parse strtod text = .ok (j, k) := by
  rcases c110_parse (ok := ok) strtod text h hf with ⟨h', a, b, c⟩ | ⟨p, h', S, j, k, a, b, -⟩
  · rcases c with ⟨k, -, -, hk⟩ | hc
    · rw [hok k] at hk; cases hk
    · rw [a, hc]; simp
  · rw [a, b]; simp

/-- C110, deleting: `cJSON_Delete` frees every block of a document once and nothing else. -/
theorem c110_delete (h : H V) (hf : Fresh h) (p : Nat) (j : J V) (S : List Nat) (hd : Doc h p j S) :
    ∃ h', delete h.used h (some p) = some h' ∧ ∀ a, h'.cells a = if a ∈ S then none else h.cells a := by
  have ho := hd.1.own .nil
  rw [List.append_nil] at ho
  obtain ⟨h', e, G⟩ := delete_own ho h.used h hd.2 (fun _ _ => rfl) (nodup_length hd.2 fun a ha => lt_used hf (ho.some_of_mem a ha))
  exact ⟨h', e, G.2⟩

/-- C110, both: after parsing and deleting, as `config_parse` and `tls_tunnel_s_auth_fparse` do, the memory is as it was. -/
theorem c110_nothing_left (strtod : List UInt8 → Nat × V) (text : List UInt8) (h : H V) (hf : Fresh h) :
    ∃ r h', parse ok strtod text h = some (r, h') ∧ ∃ h2, delete h'.used h' r = some h2 ∧ h2.cells = h.cells := by
  rcases parseLen_cases (ok := ok) strtod (text.takeWhile (· ≠ 0) ++ [0]) h hf (fun x hx => c50_inside strtod text x hx) with ⟨h', a, b, c⟩ | ⟨h', S, j, k, a, b, c, d, e, f, g, i⟩
  · exact ⟨none, h', a, h', by cases h'.used <;> rfl, b.cells⟩
  · obtain ⟨h2, e2, c2⟩ := c110_delete h' g _ j S c
    refine ⟨_, h', a, h2, e2, ?_⟩
    funext x
    rw [c2]
    split
    · next hx => rw [hf x (d x hx)]
    · next hx => exact e x hx

/-! ### Reading the document -/

theorem Seg.head {h : H V} {p : Nat} {x : Option (List UInt8) × J V} {xs : List (Option (List UInt8) × J V)} {S : List Nat} {q : Option Nat} (hs : Seg h (some p) (x :: xs) S q) :
    ∃ it Sn S1 S2, h.cells p = some (.item it) ∧ Name h it.str x.1 Sn ∧ Seg h (some p) [x] S1 it.next ∧ Seg h it.next xs S2 q ∧ S2.length + 1 ≤ S.length := by
  cases hs with
  | plain a1 a2 a3 a4 a5 => exact ⟨_, _, _, _, a1, a2, .plain a1 a2 a3 a4 (.nil _), a5, by simp; omega⟩
  | arr a1 a2 a3 a4 a5 a6 => exact ⟨_, _, _, _, a1, a2, .arr a1 a2 a3 a4 a5 (.nil _), a6, by simp; omega⟩
  | obj a1 a2 a3 a4 a5 a6 => exact ⟨_, _, _, _, a1, a2, .obj a1 a2 a3 a4 a5 (.nil _), a6, by simp; omega⟩

theorem Seg.none_end {h : H V} {xs : List (Option (List UInt8) × J V)} {S : List Nat} (hs : Seg h none xs S none) : xs = [] := by
  cases hs; rfl

theorem Seg.some_end {h : H V} {p : Nat} {S : List Nat} (hs : Seg h (some p) ([] : List (Option (List UInt8) × J V)) S none) : False := by
  cases hs

theorem nth_seg {h : H V} (i : Nat) : ∀ (p : Option Nat) (xs : List (Option (List UInt8) × J V)) (S : List Nat), Seg h p xs S none →
    ∃ r, nth h p i = some r ∧ match xs[i]? with
      | none => r = none
      | some x => ∃ q, r = some q ∧ Holds h q x.2 := by
  induction i with
  | zero =>
    intro p xs S hs
    cases p with
    | none => rw [hs.none_end]; exact ⟨none, rfl, rfl⟩
    | some p =>
      cases xs with
      | nil => exact hs.some_end.elim
      | cons x xs =>
        obtain ⟨it, Sn, S1, S2, a1, a2, a3, a4, -⟩ := hs.head
        exact ⟨some p, rfl, p, rfl, it, x.1, S1, a1, a3⟩
  | succ i ih =>
    intro p xs S hs
    cases p with
    | none => rw [hs.none_end]; exact ⟨none, rfl, rfl⟩
    | some p =>
      cases xs with
      | nil => exact hs.some_end.elim
      | cons x xs =>
        obtain ⟨it, Sn, S1, S2, a1, a2, a3, a4, -⟩ := hs.head
        obtain ⟨r, e, hr⟩ := ih _ _ _ a4
        refine ⟨r, by simp [nth, item, a1, e], ?_⟩
        simpa using hr

theorem count_seg {h : H V} (n : Nat) : ∀ (p : Option Nat) (xs : List (Option (List UInt8) × J V)) (S : List Nat), Seg h p xs S none → S.length ≤ n → count n h p = some xs.length := by
  induction n with
  | zero =>
    intro p xs S hs hl
    cases p with
    | none => rw [hs.none_end]; rfl
    | some p =>
      cases xs with
      | nil => exact hs.some_end.elim
      | cons x xs => obtain ⟨it, Sn, S1, S2, a1, a2, a3, a4, a5⟩ := hs.head; omega
  | succ n ih =>
    intro p xs S hs hl
    cases p with
    | none => rw [hs.none_end]; rfl
    | some p =>
      cases xs with
      | nil => exact hs.some_end.elim
      | cons x xs =>
        obtain ⟨it, Sn, S1, S2, a1, a2, a3, a4, a5⟩ := hs.head
        simp [count, item, a1, ih _ _ _ a4 (by omega)]

theorem find_seg {h : H V} (name : List UInt8) (n : Nat) : ∀ (p : Option Nat) (xs : List (Option (List UInt8) × J V)) (S : List Nat), Seg h p xs S none → S.length ≤ n →
    ∃ r, find name n h p = some r ∧
      match xs.find? (fun x => match x.1 with | none => false | some s => Config.same name s) with
      | none => r = none
      | some x => ∃ q, r = some q ∧ Holds h q x.2 := by
  induction n with
  | zero =>
    intro p xs S hs hl
    cases p with
    | none => rw [hs.none_end]; exact ⟨none, rfl, rfl⟩
    | some p =>
      cases xs with
      | nil => exact hs.some_end.elim
      | cons x xs => obtain ⟨it, Sn, S1, S2, a1, a2, a3, a4, a5⟩ := hs.head; omega
  | succ n ih =>
    intro p xs S hs hl
    cases p with
    | none => rw [hs.none_end]; exact ⟨none, rfl, rfl⟩
    | some p =>
      cases xs with
      | nil => exact hs.some_end.elim
      | cons x xs =>
        obtain ⟨it, Sn, S1, S2, a1, a2, a3, a4, a5⟩ := hs.head
        obtain ⟨nm, j⟩ := x
        obtain ⟨r, e, hr⟩ := ih _ _ _ a4 (by omega)
        cases nm with
        | none =>
          obtain ⟨b1, -⟩ := a2
          refine ⟨r, by simp [find, item, a1, b1, e], ?_⟩
          simpa using hr
        | some s =>
          obtain ⟨a, b1, b2, -⟩ := a2
          by_cases hsame : Config.same name s = true
          · refine ⟨some p, by simp [find, item, a1, b1, b2, hsame], ?_⟩
            simp only [List.find?_cons, hsame]
            exact ⟨p, rfl, it, some s, S1, a1, a3⟩
          · refine ⟨r, by simp [find, item, a1, b1, b2, hsame, e], ?_⟩
            simp only [List.find?_cons, hsame]
            simpa using hr

/-- The children of an item as they lie in memory. -/
theorem Holds.children {h : H V} {p : Nat} {j : J V} (hh : Holds h p j) :
    ∃ it S, h.cells p = some (.item it) ∧ Seg h it.child (match j with
      | .arr xs => xs.map fun x => (none, x)
      | .obj xs => xs.map fun x => (some x.1, x.2)
      | _ => []) S none := by
  obtain ⟨it, nm, S, e, hs⟩ := hh
  cases hs with
  | plain a1 a2 a3 a4 a5 =>
    refine ⟨_, [], a1, ?_⟩
    rw [a4]
    cases j <;> first | exact .nil _ | exact a3.elim
  | arr a1 a2 a3 a4 a5 a6 => exact ⟨_, _, a1, a5⟩
  | obj a1 a2 a3 a4 a5 a6 => exact ⟨_, _, a1, a5⟩

theorem Doc.holds {h : H V} {p : Nat} {j : J V} {S : List Nat} (hd : Doc h p j S) : Holds h p j := by
  obtain ⟨it, Sn, S1, S2, a1, a2, a3, a4, -⟩ := hd.1.head
  exact ⟨it, none, S1, a1, a3⟩

theorem find_more {h : H V} (name : List UInt8) (n : Nat) : ∀ (p r : Option Nat), find name n h p = some r → find name (n + 1) h p = some r := by
  induction n with
  | zero => intro p r hr; cases p <;> simp_all [find]
  | succ n ih =>
    intro p r hr
    cases p with
    | none => simpa [find] using hr
    | some c =>
      rw [find] at hr ⊢
      cases hi : item h c with
      | none => rw [hi] at hr; simp at hr
      | some it =>
        rw [hi] at hr
        simp only [Option.bind_some] at hr ⊢
        cases hs : it.str with
        | none => rw [hs] at hr; exact ih _ _ hr
        | some a =>
          rw [hs] at hr
          dsimp only at hr ⊢
          split
          · next s hc =>
            rw [hc] at hr
            dsimp only at hr
            split
            · next hsame => rw [if_pos hsame] at hr; exact hr
            · next hsame => rw [if_neg hsame] at hr; exact ih _ _ hr
          · next hc =>
            split at hr
            · next s hs' => exact absurd hs' (hc s)
            · exact hr

/-- C110, looking up by name: `cJSON_GetObjectItem` finds what the reading of the configuration without memory finds, and the item it returns holds that value. `N` bounds
the rounds of its loop. -/
theorem c110_member (h : H Int) (p : Nat) (j : J Int) (hj : Holds h p j) (name : List UInt8) :
    ∃ N r, (∀ n, N ≤ n → objectItem n h p name = some r) ∧
      match Config.item j name with
      | none => r = none
      | some x => ∃ q, r = some q ∧ Holds h q x := by
  obtain ⟨it, S, e, hs⟩ := hj.children
  obtain ⟨r, er, hr⟩ := find_seg name S.length _ _ _ hs (Nat.le_refl _)
  refine ⟨S.length, r, fun n hn => ?_, ?_⟩
  · have : find name n h it.child = some r := by
      induction n, hn using Nat.le_induction with
      | base => exact er
      | succ n _ ih => exact find_more name n _ _ ih
    simp [objectItem, item, e, this]
  · cases j with
    | obj xs =>
      simp only [List.find?_map, Function.comp_def] at hr
      simp only [Config.item]
      cases hx : xs.find? (fun m => Config.same name m.1) with
      | none => rw [hx] at hr; exact hr
      | some x => rw [hx] at hr; exact hr
    | arr xs =>
      simp only [List.find?_map, Function.comp_def] at hr
      have : xs.find? (fun _ => false) = none := by simp
      rw [this] at hr
      exact hr
    | _ => exact hr

/-- C110, looking up by position: `cJSON_GetArrayItem` returns the item of the `i`th child, or NULL if there is none. -/
theorem c110_child (h : H Int) (p : Nat) (j : J Int) (hj : Holds h p j) (i : Nat) :
    ∃ r, arrayItem h p i = some r ∧
      match (Config.children j)[i]? with
      | none => r = none
      | some x => ∃ q, r = some q ∧ Holds h q x := by
  obtain ⟨it, S, e, hs⟩ := hj.children
  obtain ⟨r, er, hr⟩ := nth_seg i _ _ _ hs
  refine ⟨r, by simp [arrayItem, item, e, er], ?_⟩
  cases j with
  | obj xs => simp only [Config.children, List.getElem?_map] at hr ⊢; cases hx : xs[i]? <;> (rw [hx] at hr; exact hr)
  | arr xs => simp only [Config.children, List.getElem?_map] at hr ⊢; cases hx : xs[i]? <;> (rw [hx] at hr; exact hr)
  | _ => exact hr

/-- C110, counting: `cJSON_GetArraySize` is the number of children. -/
theorem c110_size (h : H Int) (p : Nat) (j : J Int) (hj : Holds h p j) : ∃ N, ∀ n, N ≤ n → arraySize n h p = some (Config.size (some j)) := by
  obtain ⟨it, S, e, hs⟩ := hj.children
  refine ⟨S.length, fun n hn => ?_⟩
  simp only [arraySize, item, e, Option.bind_some, count_seg n _ _ _ hs hn]
  cases j <;> simp [Config.size, Config.children]

/-- C110, the root of a parsed document holds the document, so the three above apply to it and to everything found in it. -/
theorem c110_root (strtod : List UInt8 → Nat × V) (text : List UInt8) (h : H V) (hf : Fresh h) (p : Nat) (h' : H V) (hp : parse ok strtod text h = some (some p, h')) :
    ∃ j k, CJson.parse strtod text = .ok (j, k) ∧ Holds h' p j := by
  rcases c110_parse (ok := ok) strtod text h hf with ⟨g, a, -⟩ | ⟨q, g, S, j, k, a, b, c, -⟩
  · rw [a] at hp; cases hp
  · rw [a] at hp; cases hp; exact ⟨j, k, b, c.holds⟩

/-! ### Cases -/

/-- The memory with nothing in it, used in the cases. -/
def empty : H Int := ⟨0, fun _ => none⟩

example : Fresh empty := fun _ _ => rfl

/-- `{"a":["x",true]}`. -/
def sample : List UInt8 := [0x7B, 0x22, 0x61, 0x22, 0x3A, 0x5B, 0x22, 0x78, 0x22, 0x2C, 0x74, 0x72, 0x75, 0x65, 0x5D, 0x7D]

/-- Six blocks are taken; with `ok` failing at any of them the result is NULL and every block is free again. -/
example : (parse (fun _ => true) (fun _ => (0, 0)) sample empty).map (fun r => (r.1, r.2.used)) = some (some 0, 6) ∧
    ∀ k < 6, ((parse (fun i => i != k) (fun _ => (0, 0)) sample empty).map fun r => (r.1, (List.range r.2.used).all fun a => (r.2.cells a).isNone)) = some (none, true) := by
  constructor <;> decide +kernel

/-- Looking up `A` in it finds the array, which has two elements. -/
example : ((parse (fun _ => true) (fun _ => (0, 0)) sample empty).bind fun r => (objectItem 10 r.2 0 [0x41]).bind fun q => q.bind fun q => arraySize 10 r.2 q) = some 2 := by
  decide +kernel

/-- Deleting it frees all six. -/
example : (((parse (fun _ => true) (fun _ => (0, 0)) sample empty).bind fun r => delete r.2.used r.2 r.1).map fun h => (List.range 6).all fun a => (h.cells a).isNone) = some true := by
  decide +kernel

end Verif.CJsonMem
