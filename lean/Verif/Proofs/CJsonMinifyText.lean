import Verif.Proofs.CJsonMinify
import Verif.Props.CJson
/-
Minifying JSON texts.
-/
namespace Verif.CJsonMinify
open Spec CJson.Spec

/-- Minifying, and leaving out white space, turns `s` into `s'`, whatever follows. -/
def Good (s s' : List UInt8) : Prop := ∀ rest, mini (s ++ rest) = s' ++ mini rest ∧ strip (s ++ rest) = s' ++ strip rest

theorem Good.nil : Good [] [] := fun _ => ⟨rfl, rfl⟩

theorem Good.append {a a' b b' : List UInt8} (h1 : Good a a') (h2 : Good b b') : Good (a ++ b) (a' ++ b') := by
  intro rest
  rw [List.append_assoc, (h1 _).1, (h1 _).2, (h2 _).1, (h2 _).2]
  simp

/-- Bytes that are kept outside strings and begin nothing. -/
def Plain (c : UInt8) : Prop := c ≠ 0 ∧ c ≠ 0x20 ∧ c ≠ 9 ∧ c ≠ 13 ∧ c ≠ 10 ∧ c ≠ 0x2F ∧ c ≠ 0x22

instance (c : UInt8) : Decidable (Plain c) := by unfold Plain; infer_instance

theorem Good.byte {c : UInt8} (h : Plain c) : Good [c] [c] := by
  obtain ⟨h1, h2, h3, h4, h5, h6, h7⟩ := h
  intro rest
  constructor
  · rw [List.singleton_append, mini.eq_def]; simp [h1, h2, h3, h4, h5, h6, h7]
  · rw [List.singleton_append, strip]; simp [h2, h3, h4, h5, h7]

theorem Good.plain {s : List UInt8} (h : ∀ c ∈ s, Plain c) : Good s s := by
  induction s with
  | nil => exact .nil
  | cons c s ih => exact (Good.byte (h c (by simp))).append (b := s) (b' := s) (ih (fun x hx => h x (by simp [hx])))

theorem Good.ws {w : List UInt8} (h : Ws w) : Good w [] := by
  induction w with
  | nil => exact .nil
  | cons c w ih =>
    have hc : Good [c] [] := by
      intro rest
      rcases h c (by simp) with rfl | rfl | rfl | rfl
      all_goals exact ⟨by rw [List.singleton_append, mini.eq_def]; simp, by rw [List.singleton_append, strip]; simp⟩
    exact hc.append (b := w) (ih (fun x hx => h x (by simp [hx])))

theorem within_plain {u : List UInt8} (h : ∀ c ∈ u, c ≠ 0x22 ∧ c ≠ 0x5C) (r : List UInt8) : within (u ++ r) = u ++ within r := by
  induction u with
  | nil => rfl
  | cons c u ih =>
    have := h c (by simp)
    rw [List.cons_append, within, if_neg this.2, if_neg this.1, ih (fun x hx => h x (by simp [hx]))]
    rfl

theorem str_plain {u : List UInt8} (h : ∀ c ∈ u, c ≠ 0x22 ∧ c ≠ 0x5C) (h0 : ∀ c ∈ u, c ≠ 0) (r : List UInt8) : str (u ++ r) = (u ++ (str r).1, (str r).2) := by
  induction u with
  | nil => rfl
  | cons c u ih =>
    have := h c (by simp)
    rw [List.cons_append, str.eq_def]
    simp [this.1, this.2, h0 c (by simp), ih (fun x hx => h x (by simp [hx])) (fun x hx => h0 x (by simp [hx]))]

theorem unit_within {u o : List UInt8} (h : CJson.Spec.Unit u o) (r : List UInt8) : within (u ++ r) = u ++ within r := by
  cases h with
  | raw c hs h1 h2 h3 => exact within_plain (CJson.utf8_plain hs h2 h3) r
  | letter b c hm =>
    show within (0x5C :: b :: r) = _
    rw [within, if_pos rfl, escaped]; rfl
  | hex hs c hh hc =>
    show within (0x5C :: 0x75 :: (hs ++ r)) = _
    rw [within, if_pos rfl, escaped, within_plain (CJson.hex4_plain hh).2]; rfl
  | pair hs ls hi lo h1 h2 b1 b2 =>
    have : (0x5C :: 0x75 :: hs ++ 0x5C :: 0x75 :: ls) ++ r = 0x5C :: 0x75 :: (hs ++ (0x5C :: 0x75 :: (ls ++ r))) := by simp
    rw [this, within, if_pos rfl, escaped, within_plain (CJson.hex4_plain h1).2, within, if_pos rfl, escaped, within_plain (CJson.hex4_plain h2).2]
    simp

theorem str_esc (d : UInt8) (h : d ≠ 0x22) (r : List UInt8) : str (0x5C :: d :: r) = (0x5C :: (str (d :: r)).1, (str (d :: r)).2) := by
  rw [str.eq_def]; simp [h]

theorem hex_str {hs : List UInt8} {c : Nat} (h : Hex4 hs c) (r : List UInt8) :
    str (0x5C :: 0x75 :: (hs ++ r)) = (0x5C :: 0x75 :: hs ++ (str r).1, (str r).2) := by
  rw [str_esc _ (by decide)]
  have := str_plain (u := 0x75 :: hs) (fun x hx => by
    rcases List.mem_cons.mp hx with rfl | hx
    · decide
    · exact (CJson.hex4_plain h).2 x hx) (fun x hx => by
    rcases List.mem_cons.mp hx with rfl | hx
    · decide
    · exact CJson.hex4_nz h x hx) r
  rw [← List.cons_append, this]
  simp

theorem unit_str {u o : List UInt8} (h : CJson.Spec.Unit u o) (r : List UInt8) (hr : o = [0x5C] → r.head? ≠ some 0x22 ∧ r ≠ []) : str (u ++ r) = (u ++ (str r).1, (str r).2) := by
  cases h with
  | raw c hs h1 h2 h3 => exact str_plain (CJson.utf8_plain hs h2 h3) (CJson.utf8_nz hs h1) r
  | letter b c hm =>
    show str (0x5C :: b :: r) = _
    by_cases hq : b = 0x22
    · rw [str.eq_def]; simp [hq]
    by_cases hb : b = 0x5C
    · subst hb
      have hc : c = 0x5C := by simpa [letters] using hm
      obtain ⟨h1, h2⟩ := hr (by rw [hc])
      cases r with
      | nil => exact absurd rfl h2
      | cons d r =>
        rw [str_esc _ (by decide), str_esc _ (by simpa using h1)]
        rfl
    · rw [str_esc _ hq]
      have := str_plain (u := [b]) (by simpa using ⟨hq, hb⟩) (by simpa using (by rintro rfl; simp [letters] at hm)) r
      rw [List.singleton_append] at this
      rw [this]; rfl
  | hex hs c hh hc => exact hex_str hh r
  | pair hs ls hi lo h1 h2 b1 b2 =>
    have : (0x5C :: 0x75 :: hs ++ 0x5C :: 0x75 :: ls) ++ r = 0x5C :: 0x75 :: (hs ++ (0x5C :: 0x75 :: (ls ++ r))) := by simp
    rw [this, hex_str h1, hex_str h2]
    simp

theorem unit_ne {u o : List UInt8} (h : CJson.Spec.Unit u o) : u ≠ [] ∧ u.head? ≠ some 0x22 := by
  cases h with
  | raw c hs h1 h2 h3 =>
    have hp := CJson.utf8_plain hs h2 h3
    have hne : utf8 c ≠ [] := by unfold utf8; split <;> (try split) <;> (try split) <;> simp
    cases hu : utf8 c with
    | nil => exact absurd hu hne
    | cons x t => rw [hu] at hp; simpa using (hp x (by simp)).1
  | letter b c hm => exact ⟨by simp, by simp⟩
  | hex hs c hh hc => exact ⟨by simp, by simp⟩
  | pair hs ls hi lo h1 h2 b1 b2 => exact ⟨by simp, by simp⟩

theorem unit_out {u o : List UInt8} (h : CJson.Spec.Unit u o) : o ≠ [] := by
  have hne : ∀ c, utf8 c ≠ [] := by intro c; unfold utf8; split <;> (try split) <;> (try split) <;> simp
  cases h with
  | raw c hs h1 h2 h3 => exact hne c
  | letter b c hm => simp
  | hex hs c hh hc => exact hne c
  | pair hs ls hi lo h1 h2 b1 b2 => exact hne _

theorem str_body {b o : List UInt8} (h : Str b o) (hl : o.getLast? ≠ some 0x5C) (rest : List UInt8) :
    str (b ++ 0x22 :: rest) = (b ++ [0x22], rest) ∧ within (b ++ 0x22 :: rest) = b ++ 0x22 :: strip rest := by
  induction h with
  | nil =>
    constructor
    · rw [List.nil_append, str.eq_def]; simp
    · rw [List.nil_append, within]; simp
  | cons u o s t hu hs ih =>
    have hlt : t.getLast? ≠ some 0x5C := by
      cases t with
      | nil => simp
      | cons x t => rw [List.getLast?_append] at hl; intro h; rw [h] at hl; simp at hl
    obtain ⟨i1, i2⟩ := ih hlt
    rw [List.append_assoc]
    refine ⟨?_, by rw [unit_within hu, i2]; simp⟩
    rw [unit_str hu, i1]
    · simp
    · intro ho
      refine ⟨?_, by simp⟩
      cases hs with
      | nil => rw [ho] at hl; simp at hl
      | cons u2 o2 s2 t2 hu2 hs2 =>
        obtain ⟨n1, n2⟩ := unit_ne hu2
        cases u2 with
        | nil => exact absurd rfl n1
        | cons x u2 => simpa using n2

theorem Good.str {b o : List UInt8} (h : Str b o) (hl : o.getLast? ≠ some 0x5C) : Good (0x22 :: b ++ [0x22]) (0x22 :: b ++ [0x22]) := by
  intro rest
  have he : (0x22 :: b ++ [0x22]) ++ rest = 0x22 :: (b ++ 0x22 :: rest) := by simp
  obtain ⟨h1, h2⟩ := str_body h hl rest
  rw [he]
  constructor
  · rw [mini.eq_def]; simp [h1]
  · rw [strip, if_pos rfl, h2]; simp

/-- A list of texts, separated by commas. -/
theorem Good.commas {α : Type} (f g : α → List UInt8) (l : List α) (h : ∀ x ∈ l, Good (f x) (g x)) : Good (CJson.Spec.commas (l.map f)) (CJson.Spec.commas (l.map g)) := by
  induction l with
  | nil => exact .nil
  | cons x l ih =>
    cases l with
    | nil => exact h x (by simp)
    | cons y l =>
      have := ih (fun z hz => h z (by simp [hz]))
      rw [List.map_cons (f := f), List.map_cons (f := g), CJson.commas_cons (f x) _ (by simp), CJson.commas_cons (g x) _ (by simp)]
      exact (h x (by simp)).append ((Good.byte (by decide)).append (a := [0x2C]) (b := CJson.Spec.commas _) this)

theorem Good.wrap {a z : UInt8} (ha : Plain a) (hz : Plain z) {t t' : List UInt8} (h : Good t t') : Good (a :: t ++ [z]) (a :: t' ++ [z]) :=
  ((Good.byte ha).append (a := [a]) h).append (Good.byte hz)

theorem ws_nil : Ws [] := by intro b hb; cases hb

theorem val_good {V : Type} {N : List UInt8 → V → Prop} (hN : ∀ s v, N s v → ∀ c ∈ s, Plain c) (n : Nat) :
    ∀ (s : List UInt8) (j : CJson.J V), Val N n s j → Strings (fun s => s.getLast? ≠ some 0x5C) j → ∃ s', Good s s' ∧ Val N n s' j := by
  induction n with
  | zero =>
    intro s j h hj
    have h' := h
    unfold Val at h'
    rcases h' with ⟨rfl, rfl⟩ | ⟨rfl, rfl⟩ | ⟨rfl, rfl⟩ | ⟨v, hn, rfl⟩ | ⟨b, o, hs, rfl, rfl⟩ | h'
    · exact ⟨_, .plain (by decide), h⟩
    · exact ⟨_, .plain (by decide), h⟩
    · exact ⟨_, .plain (by decide), h⟩
    · exact ⟨_, .plain (hN _ _ hn), h⟩
    · cases hj with | str _ hl => exact ⟨_, .str hs hl, h⟩
    · exact h'.elim
  | succ n ih =>
    intro s j h hj
    have h' := h
    unfold Val at h'
    rcases h' with ⟨rfl, rfl⟩ | ⟨rfl, rfl⟩ | ⟨rfl, rfl⟩ | ⟨v, hn, rfl⟩ | ⟨b, o, hs, rfl, rfl⟩ | ⟨w, hw, rfl, rfl⟩ | ⟨w, hw, rfl, rfl⟩ | ⟨items, hne, hi, rfl, rfl⟩ | ⟨items, hne, hi, rfl, rfl⟩
    · exact ⟨_, .plain (by decide), h⟩
    · exact ⟨_, .plain (by decide), h⟩
    · exact ⟨_, .plain (by decide), h⟩
    · exact ⟨_, .plain (hN _ _ hn), h⟩
    · cases hj with | str _ hl => exact ⟨_, .str hs hl, h⟩
    · refine ⟨_, .wrap (by decide) (by decide) (.ws hw), ?_⟩
      unfold Val
      exact .inr (.inr (.inr (.inr (.inr (.inl ⟨[], ws_nil, rfl, rfl⟩)))))
    · refine ⟨_, .wrap (by decide) (by decide) (.ws hw), ?_⟩
      unfold Val
      exact .inr (.inr (.inr (.inr (.inr (.inr (.inl ⟨[], ws_nil, rfl, rfl⟩))))))
    · have hs : ∀ x ∈ items, ∃ s', Good x.2.1 s' ∧ Val N n s' x.2.2.2 := by
        intro x hx
        cases hj with | arr _ ha => exact ih _ _ (hi x hx).2.1 (ha _ (List.mem_map_of_mem hx))
      have hc : ∃ g : (List UInt8 × List UInt8 × List UInt8 × CJson.J V) → List UInt8, ∀ x ∈ items, Good x.2.1 (g x) ∧ Val N n (g x) x.2.2.2 := by
        classical
        refine ⟨fun x => if h : x ∈ items then (hs x h).choose else [], fun x hx => ?_⟩
        simp only [hx, dite_true]
        exact (hs x hx).choose_spec
      obtain ⟨g, hg⟩ := hc
      refine ⟨_, .wrap (by decide) (by decide) (Good.commas _ g items fun x hx => ?_), ?_⟩
      · have := ((Good.ws (hi x hx).1).append (hg x hx).1).append (Good.ws (hi x hx).2.2)
        simpa using this
      · unfold Val
        refine .inr (.inr (.inr (.inr (.inr (.inr (.inr (.inl ⟨items.map fun x => ([], g x, [], x.2.2.2), by simpa using hne, ?_, ?_, ?_⟩)))))))
        · intro y hy
          obtain ⟨x, hx, rfl⟩ := List.mem_map.mp hy
          exact ⟨ws_nil, (hg x hx).2, ws_nil⟩
        · simp [Function.comp_def]
        · simp [Function.comp_def]
    · have hs : ∀ x ∈ items, ∃ s', Good x.2.2.1 s' ∧ Val N n s' x.2.2.2.2 := by
        intro x hx
        cases hj with | obj _ hn ha => exact ih _ _ (hi x hx).2.2.2.2.1 (ha (x.1.2.2.1, x.2.2.2.2) (List.mem_map.mpr ⟨x, hx, rfl⟩))
      have hnm : ∀ x ∈ items, x.1.2.2.1.getLast? ≠ some 0x5C := by
        intro x hx
        cases hj with | obj _ hn ha => exact hn (x.1.2.2.1, x.2.2.2.2) (List.mem_map.mpr ⟨x, hx, rfl⟩)
      have hc : ∃ g : ((List UInt8 × List UInt8 × List UInt8 × List UInt8) × List UInt8 × List UInt8 × List UInt8 × CJson.J V) → List UInt8,
          ∀ x ∈ items, Good x.2.2.1 (g x) ∧ Val N n (g x) x.2.2.2.2 := by
        classical
        refine ⟨fun x => if h : x ∈ items then (hs x h).choose else [], fun x hx => ?_⟩
        simp only [hx, dite_true]
        exact (hs x hx).choose_spec
      obtain ⟨g, hg⟩ := hc
      refine ⟨_, .wrap (by decide) (by decide) (Good.commas _ (fun x => 0x22 :: x.1.2.1 ++ 0x22 :: 0x3A :: g x) items fun x hx => ?_), ?_⟩
      · obtain ⟨w1, s1, w2, w3, v1, w4⟩ := hi x hx
        have := (((((Good.ws w1).append (Good.str s1 (hnm x hx))).append (Good.ws w2)).append (Good.byte (c := 0x3A) (by decide))).append (Good.ws w3)).append (((hg x hx).1).append (Good.ws w4))
        simpa using this
      · unfold Val
        refine .inr (.inr (.inr (.inr (.inr (.inr (.inr (.inr ⟨items.map fun x => (([], x.1.2.1, x.1.2.2.1, []), [], g x, [], x.2.2.2.2), by simpa using hne, ?_, ?_, ?_⟩)))))))
        · intro y hy
          obtain ⟨x, hx, rfl⟩ := List.mem_map.mp hy
          exact ⟨ws_nil, (hi x hx).2.1, ws_nil, ws_nil, (hg x hx).2, ws_nil⟩
        · simp [Function.comp_def]
        · simp [Function.comp_def]

end Verif.CJsonMinify
