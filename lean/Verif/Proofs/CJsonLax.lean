import Verif.Proofs.CJsonDoc
/-
Lemmas about the JSON parser: what it accepts is a text of the wider grammar, and every such text is accepted.
-/
namespace Verif.CJson
open Spec (utf8 Scalar Hex4 commas)
open Lax (Blank Closed Literal Container)

/-- `s` is the part of the buffer from `i` to `j`. -/
def At (buf : List UInt8) (i : Nat) (s : List UInt8) (j : Nat) : Prop := buf.drop i = s ++ buf.drop j ∧ j = i + s.length

theorem At.nil (buf : List UInt8) (i : Nat) : At buf i [] i := ⟨rfl, rfl⟩

theorem At.trans {buf : List UInt8} {i j k : Nat} {s t : List UInt8} (h1 : At buf i s j) (h2 : At buf j t k) : At buf i (s ++ t) k := by
  refine ⟨by rw [h1.1, h2.1, List.append_assoc], ?_⟩
  rw [List.length_append, h2.2, h1.2]; omega

theorem At.one {buf : List UInt8} {i : Nat} {b : UInt8} (h : buf[i]? = some b) : At buf i [b] (i + 1) := by
  obtain ⟨hl, hv⟩ := List.getElem?_eq_some_iff.mp h
  refine ⟨?_, rfl⟩
  rw [List.drop_eq_getElem_cons hl, hv]; rfl

theorem At.of_drop {buf : List UInt8} {i : Nat} {s t : List UInt8} (h : buf.drop i = s ++ t) : At buf i s (i + s.length) :=
  ⟨by rw [h, drop_append h], rfl⟩

theorem At.get {buf : List UInt8} {i : Nat} {b : UInt8} (h : isAt buf i b = true) : At buf i [b] (i + 1) := by
  simp only [isAt, decide_eq_true_eq] at h
  exact .one h

theorem blank_nil : Blank [] := fun b hb => by cases hb

theorem skipRun_at (buf : List UInt8) (i : Nat) : ∃ w, Blank w ∧ At buf i w (skipRun buf i) := by
  fun_induction skipRun buf i with
  | case1 i h hb ih =>
    obtain ⟨w, hw, ha⟩ := ih
    refine ⟨[buf[i]] ++ w, ?_, (At.one (List.getElem?_eq_getElem h)).trans ha⟩
    intro b hb'
    rcases List.mem_append.mp hb' with h' | h'
    · rw [List.mem_singleton.mp h']; exact hb
    · exact hw b h'
  | case2 i h hb => exact ⟨[], blank_nil, .nil ..⟩
  | case3 i h => exact ⟨[], blank_nil, .nil ..⟩

theorem skipWs_at (buf : List UInt8) (i : Nat) : ∃ w, Blank w ∧ At buf i w (skipWs buf i) := by
  obtain ⟨w, hw, ha⟩ := skipRun_at buf i
  unfold skipWs
  split
  · split
    · rename_i hlt he
      have hl : w.length = buf.length - i := by have := ha.2; omega
      refine ⟨w.take (w.length - 1), fun b hb => hw b (List.mem_of_mem_take hb), ?_⟩
      have hd : buf.drop i = w := by
        have := ha.1
        rw [he, List.drop_length, List.append_nil] at this
        exact this
      refine ⟨?_, by rw [List.length_take]; omega⟩
      rw [show skipRun buf i - 1 = i + (w.length - 1) by omega, ← List.drop_drop, hd, List.take_append_drop]
    · exact ⟨w, hw, ha⟩
  · exact ⟨[], blank_nil, .nil ..⟩

/-! ### Strings -/

theorem S_at {buf : List UInt8} {e i k : Nat} (h : S buf e i k) : ∃ b, Closed b ∧ At buf i b e := by
  induction h with
  | stop h => exact ⟨[], .nil, .nil ..⟩
  | esc i k h hs ih =>
    obtain ⟨b, hb, ha⟩ := ih
    have hl : i + 1 < buf.length := by have := hs.le; have := hs.inside; omega
    exact ⟨_, .esc buf[i+1] b hb, ((At.one h).trans (At.one (List.getElem?_eq_getElem hl))).trans ha⟩
  | plain i k b h h1 h2 hs ih =>
    obtain ⟨s, hb, ha⟩ := ih
    exact ⟨_, .plain b s h1 h2 hb, (At.one h).trans ha⟩

theorem S_closed {body : List UInt8} (h : Closed body) : ∀ {buf : List UInt8} {i : Nat} {post : List UInt8}, buf.drop i = body ++ 0x22 :: post →
    ∃ k, S buf (i + body.length) i k := by
  induction h with
  | nil => intro buf i post h; exact ⟨0, .stop (drop_cons h).1⟩
  | esc b s h ih =>
    intro buf i post hb
    obtain ⟨h1, _, h2⟩ := drop_cons hb
    obtain ⟨_, _, h3⟩ := drop_cons h2
    obtain ⟨k, hk⟩ := ih h3
    refine ⟨k + 1, .esc i k h1 ?_⟩
    rw [List.length_cons, List.length_cons, show i + (s.length + 1 + 1) = i + 1 + 1 + s.length by omega]
    exact hk
  | plain b s n1 n2 h ih =>
    intro buf i post hb
    obtain ⟨h1, _, h2⟩ := drop_cons hb
    obtain ⟨k, hk⟩ := ih h2
    refine ⟨k, .plain i k b h1 n1 n2 ?_⟩
    rw [List.length_cons, show i + (s.length + 1) = i + 1 + s.length by omega]
    exact hk

theorem hexv_spec (a b c d : UInt8) : Hex4 [a, b, c, d] (hexv a b c d) ∨ ((¬ ∃ v, Hex4 [a, b, c, d] v) ∧ hexv a b c d = 0) := by
  unfold hexv
  split
  · rename_i x y z w h1 h2 h3 h4
    exact .inl ⟨a, b, c, d, x, y, z, w, rfl, by rw [hexDigit_spec, h1], by rw [hexDigit_spec, h2], by rw [hexDigit_spec, h3],
      by rw [hexDigit_spec, h4], rfl⟩
  · rename_i hn
    refine .inr ⟨?_, rfl⟩
    rintro ⟨v, a', b', c', d', x, y, z, w, he, h1, h2, h3, h4, _⟩
    cases he
    rw [hexDigit_spec] at h1 h2 h3 h4
    exact hn x y z w h1 h2 h3 h4

theorem four_at {buf : List UInt8} {i : Nat} (h : i + 4 ≤ buf.length) : At buf i [buf[i], buf[i+1], buf[i+2], buf[i+3]] (i + 4) := by
  have e1 := At.one (List.getElem?_eq_getElem (l := buf) (i := i) (by omega))
  have e2 := At.one (List.getElem?_eq_getElem (l := buf) (i := i + 1) (by omega))
  have e3 := At.one (List.getElem?_eq_getElem (l := buf) (i := i + 2) (by omega))
  have e4 := At.one (List.getElem?_eq_getElem (l := buf) (i := i + 3) (by omega))
  exact ((e1.trans e2).trans e3).trans e4

theorem utf16_at {buf : List UInt8} {i e n : Nat} {bs : List UInt8} (he : e ≤ buf.length) (h1 : buf[i]? = some 0x5C) (h2 : buf[i+1]? = some 0x75)
    (h : utf16 buf i e = .ok (n, bs)) : ∃ u, Lax.Unit u bs ∧ At buf i u (i + n) ∧ i + n ≤ e ∧ 0 < n := by
  unfold utf16 at h
  split at h
  · cases h
  · rename_i hl
    rw [hex4_four buf (i + 2) (by omega)] at h
    dsimp only at h
    have hat := (At.one h1).trans ((At.one h2).trans (four_at (buf := buf) (i := i + 2) (by omega)))
    have hsp := hexv_spec buf[i+2] buf[i+2+1] buf[i+2+2] buf[i+2+3]
    have hlt := hexv_lt buf[i+2] buf[i+2+1] buf[i+2+2] buf[i+2+3]
    generalize hexv buf[i+2] buf[i+2+1] buf[i+2+2] buf[i+2+3] = c at *
    split at h
    · cases h
    · rename_i hlo
      split at h
      · rename_i hhi
        split at h
        · cases h
        · rename_i hl2
          rw [rd_ok (show i + 6 < buf.length by omega), rd_ok (show i + 7 < buf.length by omega)] at h
          dsimp only at h
          split at h
          · cases h
          · rename_i hbs
            have hb6 : buf[i+6]? = some 0x5C := by
              rw [List.getElem?_eq_getElem (by omega)]
              by_cases h : buf[i+6] = 0x5C
              · rw [h]
              · exact absurd (.inl h) hbs
            have hb7 : buf[i+6+1]? = some 0x75 := by
              rw [List.getElem?_eq_getElem (by omega)]
              by_cases h : buf[i+7] = 0x75
              · exact congrArg some h
              · exact absurd (.inr h) hbs
            rw [hex4_four buf (i + 8) (by omega)] at h
            dsimp only at h
            have hat2 := (At.one hb6).trans ((At.one hb7).trans (four_at (buf := buf) (i := i + 8) (by omega)))
            have hsp2 := hexv_spec buf[i+8] buf[i+8+1] buf[i+8+2] buf[i+8+3]
            generalize hexv buf[i+8] buf[i+8+1] buf[i+8+2] buf[i+8+3] = c2 at *
            split at h
            · cases h
            · rename_i hc2
              have g1 := hsp.resolve_right (fun h => by omega)
              have g2 := hsp2.resolve_right (fun h => by omega)
              have e1 : c = 0xD800 + (c - 0xD800) := by omega
              have e2 : c2 = 0xDC00 + (c2 - 0xDC00) := by omega
              rw [e1, e2, pairCode (by omega) (by omega), toUtf8_spec (by omega)] at h
              dsimp only at h
              cases h
              refine ⟨_, .pair _ _ (c - 0xD800) (c2 - 0xDC00) (by rw [← e1]; exact g1) (by rw [← e2]; exact g2) (by omega) (by omega), hat.trans hat2, by omega, by omega⟩
      · rename_i hhi
        rw [toUtf8_spec (by omega)] at h
        dsimp only at h
        cases h
        rcases hsp with g | ⟨g, rfl⟩
        · exact ⟨_, .hex _ c g (by unfold Scalar; omega), hat, by omega, by omega⟩
        · exact ⟨_, .bad _ rfl g, hat, by omega, by omega⟩

theorem escape_letter {b c : UInt8} (h : escape b = some c) : (b, c) ∈ Spec.letters := by
  have := byte_all (p := fun b => ∀ c ∈ escape b, (b, c) ∈ Spec.letters) (by decide +kernel) b
  exact this c h

/-- What the second pass from `i` on has made of the bytes up to the closing quote at `e`. -/
def Rest (buf : List UInt8) (e i : Nat) (t : List UInt8) : Prop :=
  (∃ u, At buf i u e ∧ Lax.Str u t) ∨ (∃ u o, At buf i u (e - 1) ∧ buf[e-1]? = some 0x5C ∧ 0 < e ∧ Lax.Str u o ∧ t = o ++ [0x22])

theorem Rest.cons {buf : List UInt8} {e i j : Nat} {t u o : List UInt8} (hu : Lax.Unit u o) (ha : At buf i u j) (h : Rest buf e j t) :
    Rest buf e i (o ++ t) := by
  rcases h with ⟨s, hs, hS⟩ | ⟨s, p, hs, hb, he, hS, rfl⟩
  · exact .inl ⟨u ++ s, ha.trans hs, .cons _ _ _ _ hu hS⟩
  · exact .inr ⟨u ++ s, o ++ p, ha.trans hs, hb, he, .cons _ _ _ _ hu hS, by rw [List.append_assoc]⟩

theorem emit_eq {cap : Nat} {out bs o : List UInt8} (h : emit cap out bs = .ok o) : o = out ++ bs := by
  unfold emit at h
  split at h
  · cases h; rfl
  · cases h

theorem decode_at {buf : List UInt8} {e cap : Nat} (he : buf[e]? = some 0x22) (i : Nat) (out o : List UInt8) (hi : i ≤ e)
    (h : decode buf e cap i out = .ok o) : ∃ t, o = out ++ t ∧ Rest buf e i t := by
  have hel : e < buf.length := (List.getElem?_eq_some_iff.mp he).1
  induction hm : e - i using Nat.strongRecOn generalizing i out with
  | _ m ih =>
  rw [decode] at h
  split at h
  · rename_i hlt
    rw [rd_ok (show i < buf.length by omega)] at h
    dsimp only at h
    have hg : buf[i]? = some buf[i] := List.getElem?_eq_getElem (by omega)
    split at h
    · rename_i hb
      split at h
      · cases h
      · rename_i out' hem
        rw [emit_eq hem] at h
        obtain ⟨t, ht, hr⟩ := ih (e - (i + 1)) (by omega) (i + 1) _ (by omega) h rfl
        exact ⟨[buf[i]] ++ t, by rw [ht, List.append_assoc], .cons (.raw _ hb) (.one hg) hr⟩
    · rename_i hb
      simp only [ne_eq, Decidable.not_not] at hb
      rw [hb] at hg
      rw [rd_ok (show i + 1 < buf.length by omega)] at h
      dsimp only at h
      have hg1 : buf[i+1]? = some buf[i+1] := List.getElem?_eq_getElem (by omega)
      split at h
      · rename_i hu
        rw [hu] at hg1
        split at h
        · cases h
        · rename_i n bs hx
          obtain ⟨u, h1, h2, h3, h4⟩ := utf16_at (by omega) hg hg1 hx
          split at h
          · cases h
          · rename_i out' hem
            rw [if_neg (by omega), emit_eq hem] at h
            obtain ⟨t, ht, hr⟩ := ih (e - (i + n)) (by omega) (i + n) _ (by omega) h rfl
            exact ⟨bs ++ t, by rw [ht, List.append_assoc], .cons h1 h2 hr⟩
      · split at h
        · cases h
        · rename_i d hd
          split at h
          · cases h
          · rename_i out' hem
            rw [emit_eq hem] at h
            by_cases h2 : i + 2 ≤ e
            · obtain ⟨t, ht, hr⟩ := ih (e - (i + 2)) (by omega) (i + 2) _ (by omega) h rfl
              exact ⟨[d] ++ t, by rw [ht, List.append_assoc], .cons (.letter _ _ (escape_letter hd)) ((At.one hg).trans (At.one hg1)) hr⟩
            · have hie : e = i + 1 := by omega
              subst hie
              rw [hg1] at he
              rw [Option.some.inj he] at hd
              cases hd
              rw [decode, dif_neg (by omega)] at h
              cases h
              exact ⟨[0x22], rfl, .inr ⟨[], [], .nil .., hg, by omega, .nil, rfl⟩⟩
  · cases h
    have : i = e := by omega
    subst this
    exact ⟨[], by simp, .inl ⟨[], .nil .., .nil⟩⟩

theorem At.unique {buf : List UInt8} {i j : Nat} {s t : List UInt8} (h1 : At buf i s j) (h2 : At buf i t j) : s = t := by
  have := h1.1.symm.trans h2.1
  exact List.append_cancel_right this

theorem parseString_at {buf : List UInt8} {i j : Nat} {o : List UInt8} (h : parseString buf i = .ok (o, j)) :
    ∃ b, Literal b o ∧ At buf i (0x22 :: b ++ [0x22]) j := by
  unfold parseString rd at h
  split at h
  · cases h
  · rename_i q hq
    split at hq
    · rename_i q' hq'
      cases hq
      split at h
      · cases h
      · rename_i hqq
        simp only [ne_eq, Decidable.not_not] at hqq
        subst hqq
        split at h
        · cases h
        · rename_i e sk hx
          obtain ⟨k, hk, hS⟩ := scan_S _ _ _ _ _ hx
          obtain ⟨b, hc, ha⟩ := S_at hS
          have hqe : buf[e]? = some 0x22 := by
            clear hx hk ha
            generalize i + 1 = i' at hS
            induction hS with
            | stop h => exact h
            | esc i k h hs ih => exact ih
            | plain i k b h h1 h2 hs ih => exact ih
          dsimp only at h
          split at h
          · cases h
          · rename_i out hd
            split at h
            · cases h
            · cases h
              have hle := hS.le
              obtain ⟨t, ht, hr⟩ := decode_at hqe _ _ _ (by omega) hd
              rw [List.nil_append] at ht
              subst ht
              refine ⟨b, ⟨hc, ?_⟩, ((At.one hq').trans ha).trans (At.one hqe)⟩
              rcases hr with ⟨u, hu, hs⟩ | ⟨u, o, hu, hb, he, hs, rfl⟩
              · rw [← hu.unique ha]; exact .inl hs
              · refine .inr ⟨u, o, ?_, hs, rfl⟩
                have := hu.trans (At.one hb)
                rw [show e - 1 + 1 = e by omega] at this
                exact (this.unique ha).symm
    · cases hq

theorem decode_lax {buf : List UInt8} {e cap i : Nat} {u o rest : List UInt8} (hu : Lax.Unit u o) (out : List UInt8) (h : buf.drop i = u ++ rest)
    (hl : i + u.length ≤ e) : Next (decode buf e cap i out) (decode buf e cap (i + u.length) (out ++ o)) := by
  cases hu with
  | raw b hb =>
    rw [List.length_singleton] at hl ⊢
    rw [decode, dif_pos (by omega), rd_drop h]
    dsimp only
    rw [if_pos hb]
    rcases emit_next cap out [b] with he | he
    · rw [he]; exact .inl rfl
    · rw [he]; exact .inr rfl
  | letter b c hm => exact decode_unit (.letter b c hm) out h hl
  | hex hs c hh hc => exact decode_unit (.hex hs c hh hc) out h hl
  | pair hs ls hi lo h1 h2 b1 b2 => exact decode_unit (.pair hs ls hi lo h1 h2 b1 b2) out h hl
  | bad hs hl4 hn =>
    rw [List.length_cons, List.length_cons, hl4] at hl ⊢
    have h5 := (drop_cons (drop_cons h).2.2).2.2
    have hlen : i + 2 + 4 ≤ buf.length := by
      have := congrArg List.length h
      simp only [List.length_drop, List.length_append, List.length_cons, hl4] at this
      omega
    have hx : utf16 buf i e = .ok (6, [0]) := by
      rw [utf16, if_neg (by omega), hex4_four buf (i + 2) hlen]
      have hat := four_at hlen
      have heq : hs = [buf[i+2], buf[i+2+1], buf[i+2+2], buf[i+2+3]] := by
        have := At.of_drop h5
        rw [hl4] at this
        exact At.unique this hat
      rcases hexv_spec buf[i+2] buf[i+2+1] buf[i+2+2] buf[i+2+3] with g | ⟨_, g⟩
      · rw [heq] at hn; exact absurd ⟨_, g⟩ hn
      · rw [g]; rfl
    exact decode_u h (by omega) hx (by decide)

theorem decode_laxes {buf : List UInt8} {e cap : Nat} {body o : List UInt8} (hs : Lax.Str body o) : ∀ {i : Nat} {post : List UInt8} (out : List UInt8),
    buf.drop i = body ++ post → i + body.length ≤ e → Next (decode buf e cap i out) (decode buf e cap (i + body.length) (out ++ o)) := by
  induction hs with
  | nil =>
    intro i post out h he
    exact .inl (by simp)
  | cons u o s t hu hs ih =>
    intro i post out h he
    rw [List.length_append] at he
    rw [List.append_assoc] at h
    refine Next.trans (decode_lax hu out h (by omega)) ?_
    rw [← List.append_assoc, List.length_append, ← Nat.add_assoc]
    exact ih (out ++ o) (drop_append h) (by omega)

theorem literal_strAt {buf b o : List UInt8} (h : Literal b o) : StrAt buf b o := by
  intro i post hb
  obtain ⟨hc, hs⟩ := h
  obtain ⟨_, hlt, h1⟩ := drop_cons hb
  obtain ⟨k, hk⟩ := S_closed hc h1
  have hsc := scan_of_S hk 0
  have hdec : ∀ cap, Next (decode buf (i + 1 + b.length) cap (i + 1) []) (.ok o) := by
    intro cap
    rcases hs with hs | ⟨b', o', rfl, hs, rfl⟩
    · refine Next.trans (decode_laxes hs [] h1 (by omega)) ?_
      rw [decode, dif_neg (by omega)]
      exact .inl (by simp)
    · have h1' : buf.drop (i + 1) = b' ++ (0x5C :: 0x22 :: post) := by rw [h1]; simp
      refine Next.trans (decode_laxes hs [] h1' (by simp)) ?_
      have h2 := drop_append h1'
      have h3 := (drop_cons h2).2.2
      rw [decode, dif_pos (by simp), rd_drop h2]
      dsimp only
      rw [if_neg (by decide), rd_drop h3]
      dsimp only
      rw [if_neg (by decide), show escape 0x22 = some 0x22 from rfl]
      dsimp only
      rcases emit_next cap ([] ++ o') [0x22] with he | he
      · rw [he]
        dsimp only
        rw [decode, dif_neg (by simp; omega)]
        exact .inl (by simp)
      · rw [he]; exact .inr rfl
  have hsafe := (parseString_safe hlt).1
  revert hsafe
  unfold parseString
  rw [rd_drop hb]
  dsimp only
  rw [if_neg (by decide), hsc]
  dsimp only
  intro hsafe
  rcases hdec (i + 1 + b.length - i - (0 + k) + 1) with hd | hd
  · rw [hd] at hsafe ⊢
    dsimp only at hsafe ⊢
    rcases emit_next (i + 1 + b.length - i - (0 + k) + 1) o [0] with he | he
    · rw [he]
      dsimp only
      rw [show i + 1 + b.length + 1 = i + b.length + 2 by omega]
    · rw [he] at hsafe
      exact absurd (hsafe _ rfl) (by decide)
  · rw [hd] at hsafe
    exact absurd (hsafe _ rfl) (by decide)

/-! ### Arrays and objects -/

/-- `val` accepts only texts of `P`. -/
def Sound {V : Type} (P : List UInt8 → J V → Prop) (val : Nat → R (J V × Nat)) (buf : List UInt8) : Prop :=
  ∀ i v j, val i = .ok (v, j) → ∃ s, P s v ∧ At buf i s j

theorem blank_append {a b : List UInt8} (h1 : Blank a) (h2 : Blank b) : Blank (a ++ b) := by
  intro c hc
  rcases List.mem_append.mp hc with h | h
  · exact h1 c h
  · exact h2 c h

theorem elems_at {V : Type} {P : List UInt8 → J V → Prop} {val : Nat → R (J V × Nat)} {buf : List UInt8} (hv : Sound P val buf) (fuel : Nat) :
    ∀ i acc xs k, elems val buf fuel i acc = .ok (xs, k) → ∃ items : List (List UInt8 × List UInt8 × List UInt8 × J V), items ≠ [] ∧
      (∀ x ∈ items, Blank x.1 ∧ P x.2.1 x.2.2.2 ∧ Blank x.2.2.1) ∧ xs = acc ++ items.map (fun x => x.2.2.2) ∧
      At buf (i + 1) (commas (items.map itemText)) k ∧ isAt buf k 0x5D = true := by
  induction fuel with
  | zero => intro i acc xs k h; cases h
  | succ fuel ih =>
    intro i acc xs k h
    rw [elems] at h
    split at h
    · cases h
    · rename_i v j hval
      obtain ⟨w, hw, ha⟩ := skipWs_at buf (i + 1)
      obtain ⟨s, hs, hb⟩ := hv _ _ _ hval
      obtain ⟨w', hw', hc⟩ := skipWs_at buf j
      dsimp only at h
      split at h
      · rename_i hcm
        obtain ⟨items, hne, hit, hxs, hat, hend⟩ := ih _ _ _ _ h
        refine ⟨(w, s, w', v) :: items, by simp, ?_, ?_, ?_, hend⟩
        · intro x hx
          rcases List.mem_cons.mp hx with rfl | hx
          · exact ⟨hw, hs, hw'⟩
          · exact hit x hx
        · rw [hxs]; simp
        · have := ((ha.trans hb).trans hc).trans ((At.get hcm).trans hat)
          rw [List.map_cons, commas_cons _ _ (by simpa using hne)]
          exact this
      · split at h
        · rename_i hcm hcl
          cases h
          refine ⟨[(w, s, w', v)], by simp, ?_, rfl, (ha.trans hb).trans hc, hcl⟩
          intro x hx
          rw [List.mem_singleton.mp hx]
          exact ⟨hw, hs, hw'⟩
        · cases h

/-- A first element or member may have more blanks in front of it. -/
theorem items_front {V : Type} {P : List UInt8 → J V → Prop} {w : List UInt8} (hw : Blank w) (items : List (List UInt8 × List UInt8 × List UInt8 × J V))
    (hne : items ≠ []) (hit : ∀ x ∈ items, Blank x.1 ∧ P x.2.1 x.2.2.2 ∧ Blank x.2.2.1) :
    ∃ items' : List (List UInt8 × List UInt8 × List UInt8 × J V), items' ≠ [] ∧ (∀ x ∈ items', Blank x.1 ∧ P x.2.1 x.2.2.2 ∧ Blank x.2.2.1) ∧
      commas (items'.map itemText) = w ++ commas (items.map itemText) ∧ items'.map (fun x => x.2.2.2) = items.map (fun x => x.2.2.2) := by
  cases items with
  | nil => exact absurd rfl hne
  | cons x xs =>
    obtain ⟨w0, s, w', j⟩ := x
    refine ⟨(w ++ w0, s, w', j) :: xs, by simp, ?_, ?_, rfl⟩
    · intro x hx
      rcases List.mem_cons.mp hx with rfl | hx
      · have := hit _ (List.mem_cons_self ..)
        exact ⟨blank_append hw this.1, this.2⟩
      · exact hit x (List.mem_cons_of_mem _ hx)
    · cases xs with
      | nil => simp [commas, itemText]
      | cons y ys => simp [commas, itemText]

theorem array_at {V : Type} {P : List UInt8 → J V → Prop} {val : Nat → R (J V × Nat)} {buf : List UInt8} (hv : Sound P val buf) {i k : Nat} {v : J V}
    (hi : isAt buf i 0x5B = true) (h : array val buf i = .ok (v, k)) :
    (∃ w, Blank w ∧ v = .arr [] ∧ At buf i (0x5B :: w ++ [0x5D]) k) ∨
    (∃ items : List (List UInt8 × List UInt8 × List UInt8 × J V), items ≠ [] ∧ (∀ x ∈ items, Blank x.1 ∧ P x.2.1 x.2.2.2 ∧ Blank x.2.2.1) ∧
      v = .arr (items.map fun x => x.2.2.2) ∧ At buf i (0x5B :: commas (items.map itemText) ++ [0x5D]) k) := by
  unfold array at h
  obtain ⟨w, hw, ha⟩ := skipWs_at buf (i + 1)
  have hge := skipWs_ge buf (i + 1)
  have h0 := At.get hi
  dsimp only at h
  split at h
  · rename_i hcl
    cases h
    exact .inl ⟨w, hw, rfl, (h0.trans ha).trans (At.get hcl)⟩
  · split at h
    · cases h
    · split at h
      · cases h
      · rename_i xs k' hel
        cases h
        obtain ⟨items, hne, hit, hxs, hat, hend⟩ := elems_at hv _ _ _ _ _ hel
        rw [show skipWs buf (i + 1) - 1 + 1 = skipWs buf (i + 1) by omega] at hat
        obtain ⟨items', hne', hit', hc', hm'⟩ := items_front hw items hne hit
        refine .inr ⟨items', hne', hit', by rw [hxs, hm']; rfl, ?_⟩
        rw [hc']
        exact (h0.trans (ha.trans hat)).trans (At.get hend)

theorem members_at {V : Type} {P : List UInt8 → J V → Prop} {val : Nat → R (J V × Nat)} {buf : List UInt8} (hv : Sound P val buf) (fuel : Nat) :
    ∀ i acc xs k, members val buf fuel i acc = .ok (xs, k) →
      ∃ items : List ((List UInt8 × List UInt8 × List UInt8 × List UInt8) × List UInt8 × List UInt8 × List UInt8 × J V), items ≠ [] ∧
      (∀ x ∈ items, Blank x.1.1 ∧ Literal x.1.2.1 x.1.2.2.1 ∧ Blank x.1.2.2.2 ∧ Blank x.2.1 ∧ P x.2.2.1 x.2.2.2.2 ∧ Blank x.2.2.2.1) ∧
      xs = acc ++ items.map (fun x => (x.1.2.2.1, x.2.2.2.2)) ∧ At buf (i + 1) (commas (items.map memText)) k ∧ isAt buf k 0x7D = true := by
  induction fuel with
  | zero => intro i acc xs k h; cases h
  | succ fuel ih =>
    intro i acc xs k h
    rw [members] at h
    split at h
    · cases h
    · rename_i name j0 hstr
      obtain ⟨w1, hw1, ha1⟩ := skipWs_at buf (i + 1)
      obtain ⟨b, hlit, hab⟩ := parseString_at hstr
      obtain ⟨w2, hw2, ha2⟩ := skipWs_at buf j0
      dsimp only at h
      split at h
      · rename_i hcolon
        split at h
        · cases h
        · rename_i v j hval
          obtain ⟨w3, hw3, ha3⟩ := skipWs_at buf (skipWs buf j0 + 1)
          obtain ⟨s, hs, hb⟩ := hv _ _ _ hval
          obtain ⟨w4, hw4, ha4⟩ := skipWs_at buf j
          have hall : At buf (i + 1) (memText ((w1, b, name, w2), w3, s, w4, v)) (skipWs buf j) := by
            have := (((((ha1.trans hab).trans ha2).trans (At.get hcolon)).trans ha3).trans hb).trans ha4
            have he : memText ((w1, b, name, w2), w3, s, w4, v) = w1 ++ (0x22 :: b ++ [0x22]) ++ w2 ++ [0x3A] ++ w3 ++ s ++ w4 := by
              simp [memText]
            rw [he]; exact this
          split at h
          · rename_i hcm
            obtain ⟨items, hne, hit, hxs, hat, hend⟩ := ih _ _ _ _ h
            refine ⟨((w1, b, name, w2), w3, s, w4, v) :: items, by simp, ?_, ?_, ?_, hend⟩
            · intro x hx
              rcases List.mem_cons.mp hx with rfl | hx
              · exact ⟨hw1, hlit, hw2, hw3, hs, hw4⟩
              · exact hit x hx
            · rw [hxs]; simp
            · have := hall.trans ((At.get hcm).trans hat)
              rw [List.map_cons, commas_cons _ _ (by simpa using hne)]
              exact this
          · split at h
            · rename_i hcm hcl
              cases h
              refine ⟨[((w1, b, name, w2), w3, s, w4, v)], by simp, ?_, rfl, hall, hcl⟩
              intro x hx
              rw [List.mem_singleton.mp hx]
              exact ⟨hw1, hlit, hw2, hw3, hs, hw4⟩
            · cases h
      · cases h

theorem object_at {V : Type} {P : List UInt8 → J V → Prop} {val : Nat → R (J V × Nat)} {buf : List UInt8} (hv : Sound P val buf) {i k : Nat} {v : J V}
    (hi : isAt buf i 0x7B = true) (h : object val buf i = .ok (v, k)) :
    (∃ w, Blank w ∧ v = .obj [] ∧ At buf i (0x7B :: w ++ [0x7D]) k) ∨
    (∃ items : List ((List UInt8 × List UInt8 × List UInt8 × List UInt8) × List UInt8 × List UInt8 × List UInt8 × J V), items ≠ [] ∧
      (∀ x ∈ items, Blank x.1.1 ∧ Literal x.1.2.1 x.1.2.2.1 ∧ Blank x.1.2.2.2 ∧ Blank x.2.1 ∧ P x.2.2.1 x.2.2.2.2 ∧ Blank x.2.2.2.1) ∧
      v = .obj (items.map fun x => (x.1.2.2.1, x.2.2.2.2)) ∧ At buf i (0x7B :: commas (items.map memText) ++ [0x7D]) k) := by
  unfold object at h
  obtain ⟨w, hw, ha⟩ := skipWs_at buf (i + 1)
  have hge := skipWs_ge buf (i + 1)
  have h0 := At.get hi
  dsimp only at h
  split at h
  · rename_i hcl
    cases h
    exact .inl ⟨w, hw, rfl, (h0.trans ha).trans (At.get hcl)⟩
  · split at h
    · cases h
    · split at h
      · cases h
      · rename_i xs k' hel
        cases h
        obtain ⟨items, hne, hit, hxs, hat, hend⟩ := members_at hv _ _ _ _ _ hel
        rw [show skipWs buf (i + 1) - 1 + 1 = skipWs buf (i + 1) by omega] at hat
        cases items with
        | nil => exact absurd rfl hne
        | cons x xs' =>
          obtain ⟨⟨w0, n, o, w2⟩, y⟩ := x
          refine .inr ⟨((w ++ w0, n, o, w2), y) :: xs', by simp, ?_, by rw [hxs]; rfl, ?_⟩
          · intro x hx
            rcases List.mem_cons.mp hx with rfl | hx
            · have := hit _ (List.mem_cons_self ..)
              exact ⟨blank_append hw this.1, this.2⟩
            · exact hit x (List.mem_cons_of_mem _ hx)
          · have := (h0.trans (ha.trans hat)).trans (At.get hend)
            have he : commas ((((w ++ w0, n, o, w2), y) :: xs').map memText) = w ++ commas ((((w0, n, o, w2), y) :: xs').map memText) := by
              cases xs' with
              | nil => simp [commas, memText]
              | cons y ys => simp [commas, memText]
            rw [he]; exact this

/-! ### Values -/

theorem word_at {buf : List UInt8} {i : Nat} {w : List UInt8} (h : word buf i w = true) : At buf i w (i + w.length) := by
  simp only [word, decide_eq_true_eq] at h
  have : buf.drop i = w ++ (buf.drop i).drop w.length := by
    conv => lhs; rw [← List.take_append_drop w.length (buf.drop i), h]
  exact At.of_drop this

theorem numChar_numeric (b : UInt8) : numChar b = true ↔ b ∈ Lax.numeric :=
  byte_all (p := fun b => numChar b = true ↔ b ∈ Lax.numeric) (by decide +kernel) b

theorem digit_iff (b : UInt8) : (0x30 ≤ b ∧ b ≤ 0x39) ↔ b ∈ "0123456789".toUTF8.toList :=
  byte_all (p := fun b => (0x30 ≤ b ∧ b ≤ 0x39) ↔ b ∈ "0123456789".toUTF8.toList) (by decide +kernel) b

theorem parseNumber_at {V : Type} {strtod : List UInt8 → Nat × V} (hp : Lax.Prefix strtod) {buf : List UInt8} {i k : Nat} {v : J V} {b : UInt8}
    (hb : buf[i]? = some b) (hd : b = 0x2D ∨ (0x30 ≤ b ∧ b ≤ 0x39)) (h : parseNumber strtod buf i = .ok (v, k)) :
    ∃ s x, Lax.Number strtod s x ∧ v = .num x ∧ At buf i s k := by
  unfold parseNumber at h
  dsimp only at h
  generalize hrun : ((buf.drop i).take 63).takeWhile numChar = run at h
  split at h
  · cases h
  · rename_i hnz
    cases h
    obtain ⟨hle, hst⟩ := hp run
    have hpre : run <+: buf.drop i := by
      rw [← hrun]
      exact (List.takeWhile_prefix _).trans (List.take_prefix _ _)
    have hlen : run.length ≤ 63 := by
      have h1 : run.length ≤ ((buf.drop i).take 63).length := by rw [← hrun]; exact (List.takeWhile_prefix _).length_le
      rw [List.length_take] at h1
      omega
    have hall : ∀ c ∈ run, numChar c = true := by
      intro c hc
      rw [← hrun] at hc
      exact List.all_eq_true.mp List.all_takeWhile c hc
    have hs : run.take (strtod run).1 <+: buf.drop i := (List.take_prefix _ _).trans hpre
    obtain ⟨rest, hrest⟩ := hs
    have hl : (run.take (strtod run).1).length = (strtod run).1 := by rw [List.length_take]; omega
    refine ⟨run.take (strtod run).1, (strtod run).2, ⟨by omega, fun c hc => (numChar_numeric c).mp (hall c (List.mem_of_mem_take hc)), ⟨b, ?_, ?_⟩, ?_⟩, rfl, ?_⟩
    · have h0 : (buf.drop i).head? = some b := by rw [List.head?_drop]; exact hb
      rw [← hrest] at h0
      cases hx : run.take (strtod run).1 with
      | nil => rw [hx] at hl; simp at hl; omega
      | cons a t => rw [hx] at h0; exact h0
    · rcases hd with h | h
      · exact .inl h
      · exact .inr ((digit_iff b).mp h)
    · rw [hst, hl]
    · have := At.of_drop hrest.symm
      rw [hl] at this
      exact this

theorem value_lax_leaf {V : Type} {strtod : List UInt8 → Nat × V} (hp : Lax.Prefix strtod) {buf : List UInt8} {n i k : Nat} {v : J V}
    (h : value strtod buf n i = .ok (v, k)) :
    (∃ s, ((s = [0x6E, 0x75, 0x6C, 0x6C] ∧ v = .null) ∨
      (s = [0x66, 0x61, 0x6C, 0x73, 0x65] ∧ v = .bool false) ∨
      (s = [0x74, 0x72, 0x75, 0x65] ∧ v = .bool true) ∨
      (∃ x, Lax.Number strtod s x ∧ v = .num x) ∨
      (∃ b o, Literal b o ∧ s = 0x22 :: b ++ [0x22] ∧ v = .str o)) ∧ At buf i s k) ∨
    ∃ b, buf[i]? = some b ∧ nested strtod buf n i b = .ok (v, k) := by
  rw [value_eq] at h
  split at h
  · rename_i hw
    cases h
    exact .inl ⟨_, .inl ⟨rfl, rfl⟩, word_at hw⟩
  · split at h
    · rename_i hw
      cases h
      exact .inl ⟨_, .inr (.inl ⟨rfl, rfl⟩), word_at hw⟩
    · split at h
      · rename_i hw
        cases h
        exact .inl ⟨_, .inr (.inr (.inl ⟨rfl, rfl⟩)), word_at hw⟩
      · split at h
        · cases h
        · rename_i b hb
          split at h
          · split at h
            · cases h
            · rename_i s j hs
              cases h
              obtain ⟨body, hlit, hat⟩ := parseString_at hs
              exact .inl ⟨_, .inr (.inr (.inr (.inr ⟨body, s, hlit, rfl, rfl⟩))), hat⟩
          · split at h
            · rename_i hd
              obtain ⟨s, x, hn, hv, hat⟩ := parseNumber_at hp hb hd h
              exact .inl ⟨s, .inr (.inr (.inr (.inl ⟨x, hn, hv⟩))), hat⟩
            · exact .inr ⟨b, hb, h⟩

/-- What the parser accepts is a text of the wider grammar, with the value it has there. -/
theorem value_sound {V : Type} {strtod : List UInt8 → Nat × V} (hp : Lax.Prefix strtod) (buf : List UInt8) (n : Nat) :
    Sound (Lax.Val strtod n) (value strtod buf n) buf := by
  induction n with
  | zero =>
    intro i v j h
    rcases value_lax_leaf hp h with ⟨s, hs, hat⟩ | ⟨b, _, h⟩
    · refine ⟨s, ?_, hat⟩
      unfold Lax.Val
      rcases hs with h | h | h | h | h
      · exact .inl h
      · exact .inr (.inl h)
      · exact .inr (.inr (.inl h))
      · exact .inr (.inr (.inr (.inl h)))
      · exact .inr (.inr (.inr (.inr (.inl h))))
    · cases h
  | succ n ih =>
    intro i v j h
    rcases value_lax_leaf hp h with ⟨s, hs, hat⟩ | ⟨b, hb, h⟩
    · refine ⟨s, ?_, hat⟩
      unfold Lax.Val
      rcases hs with h | h | h | h | h
      · exact .inl h
      · exact .inr (.inl h)
      · exact .inr (.inr (.inl h))
      · exact .inr (.inr (.inr (.inl h)))
      · exact .inr (.inr (.inr (.inr (.inl h))))
    · unfold nested at h
      dsimp only at h
      split at h
      · rename_i hbb
        subst hbb
        rcases array_at ih (by simp [isAt, hb]) h with ⟨w, hw, rfl, hat⟩ | ⟨it, hne, hit, rfl, hat⟩
        · refine ⟨_, ?_, hat⟩
          unfold Lax.Val
          exact .inr (.inr (.inr (.inr (.inr (.inl ⟨w, hw, rfl, rfl⟩)))))
        · refine ⟨_, ?_, hat⟩
          unfold Lax.Val
          exact .inr (.inr (.inr (.inr (.inr (.inr (.inr (.inl ⟨it, hne, hit, rfl, rfl⟩)))))))
      · split at h
        · rename_i hbb
          subst hbb
          rcases object_at ih (by simp [isAt, hb]) h with ⟨w, hw, rfl, hat⟩ | ⟨it, hne, hit, rfl, hat⟩
          · refine ⟨_, ?_, hat⟩
            unfold Lax.Val
            exact .inr (.inr (.inr (.inr (.inr (.inr (.inl ⟨w, hw, rfl, rfl⟩))))))
          · refine ⟨_, ?_, hat⟩
            unfold Lax.Val
            exact .inr (.inr (.inr (.inr (.inr (.inr (.inr (.inr ⟨it, hne, hit, rfl, rfl⟩)))))))
        · cases h

theorem lax_head {V : Type} {strtod : List UInt8 → Nat × V} {n : Nat} {s : List UInt8} {j : J V} (h : Lax.Val strtod n s j) : Head s := by
  unfold Lax.Val at h
  rcases h with ⟨rfl, _⟩ | ⟨rfl, _⟩ | ⟨rfl, _⟩ | ⟨v, ⟨_, _, ⟨b, hb, hd⟩, _⟩, _⟩ | ⟨b, o, _, rfl, _⟩ | h
  · exact ⟨_, _, rfl, by decide⟩
  · exact ⟨_, _, rfl, by decide⟩
  · exact ⟨_, _, rfl, by decide⟩
  · cases s with
    | nil => cases hb
    | cons a t =>
      cases hb
      refine ⟨_, t, rfl, ?_⟩
      exact byte_all (p := fun b => (b = 0x2D ∨ b ∈ "0123456789".toUTF8.toList) → 32 < b ∧ b ≠ 0x5D ∧ b ≠ 0x7D) (by decide +kernel) _ hd
  · exact ⟨_, _, rfl, by decide⟩
  · cases n with
    | zero => exact h.elim
    | succ n =>
      rcases h with ⟨w, _, rfl, _⟩ | ⟨w, _, rfl, _⟩ | ⟨it, _, _, rfl, _⟩ | ⟨it, _, _, rfl, _⟩ <;> exact ⟨_, _, rfl, by decide⟩

theorem lax_leaf {V : Type} {strtod : List UInt8 → Nat × V} {buf : List UInt8} (n : Nat) (s : List UInt8) (j : J V) (h :
    (s = [0x6E, 0x75, 0x6C, 0x6C] ∧ j = .null) ∨
    (s = [0x66, 0x61, 0x6C, 0x73, 0x65] ∧ j = .bool false) ∨
    (s = [0x74, 0x72, 0x75, 0x65] ∧ j = .bool true) ∨
    (∃ v, Lax.Number strtod s v ∧ j = .num v) ∨
    (∃ b o, Literal b o ∧ s = 0x22 :: b ++ [0x22] ∧ j = .str o)) : Parses (value strtod buf n) buf s j := by
  intro i post hb hp
  rw [value_eq]
  rcases h with ⟨rfl, rfl⟩ | ⟨rfl, rfl⟩ | ⟨rfl, rfl⟩ | ⟨v, ⟨hl, hn, ⟨b, hh, hd⟩, hc⟩, rfl⟩ | ⟨b, o, hs, rfl, rfl⟩
  · rw [if_pos (word_eq hb)]; rfl
  · rw [word_ne hb _ _ (by decide), if_neg (by decide), if_pos (word_eq hb)]; rfl
  · rw [word_ne hb _ _ (by decide), word_ne hb _ _ (by decide), if_neg (by decide), if_neg (by decide), if_pos (word_eq hb)]; rfl
  · cases s with
    | nil => cases hh
    | cons a t =>
      cases hh
      have hbb : b = 0x2D ∨ (0x30 ≤ b ∧ b ≤ 0x39) := by
        rcases hd with h | h
        · exact .inl h
        · exact .inr ((digit_iff b).mpr h)
      have hne := byte_all (p := fun b => (b = 0x2D ∨ (0x30 ≤ b ∧ b ≤ 0x39)) → b ≠ 0x6E ∧ b ≠ 0x66 ∧ b ≠ 0x74 ∧ b ≠ 0x22) (by decide +kernel) b hbb
      rw [word_ne hb _ _ hne.1, word_ne hb _ _ hne.2.1, word_ne hb _ _ hne.2.2.1, (drop_cons hb).1]
      dsimp only
      rw [if_neg (by decide), if_neg (by decide), if_neg (by decide), if_neg hne.2.2.2, if_pos hbb]
      unfold parseNumber
      dsimp only
      rw [hb, takeWhile_stop _ _ (fun c hc => (numChar_numeric c).mpr (hn c hc)) hp 63 hl, hc]
      dsimp only
      rw [if_neg (by simp)]
  · have hb' : buf.drop i = 0x22 :: b ++ 0x22 :: post := by rw [hb]; simp
    rw [word_ne hb _ _ (by decide), word_ne hb _ _ (by decide), word_ne hb _ _ (by decide), (drop_cons hb).1]
    dsimp only
    rw [if_neg (by decide), if_neg (by decide), if_neg (by decide), if_pos rfl, literal_strAt hs _ _ hb']
    simp only [List.length_append, List.length_cons, List.length_nil]
    congr 2

/-- Every text of the wider grammar is parsed to the value it has there. -/
theorem value_complete {V : Type} {strtod : List UInt8 → Nat × V} {buf : List UInt8} (n : Nat) :
    ∀ s j, Lax.Val strtod n s j → Parses (value strtod buf n) buf s j := by
  induction n with
  | zero =>
    intro s j h
    unfold Lax.Val at h
    rcases h with h | h | h | h | h | h
    · exact lax_leaf 0 s j (.inl h)
    · exact lax_leaf 0 s j (.inr (.inl h))
    · exact lax_leaf 0 s j (.inr (.inr (.inl h)))
    · exact lax_leaf 0 s j (.inr (.inr (.inr (.inl h))))
    · exact lax_leaf 0 s j (.inr (.inr (.inr (.inr h))))
    · exact h.elim
  | succ n ih =>
    intro s j h
    unfold Lax.Val at h
    rcases h with h | h | h | h | h | h
    · exact lax_leaf _ s j (.inl h)
    · exact lax_leaf _ s j (.inr (.inl h))
    · exact lax_leaf _ s j (.inr (.inr (.inl h)))
    · exact lax_leaf _ s j (.inr (.inr (.inr (.inl h))))
    · exact lax_leaf _ s j (.inr (.inr (.inr (.inr h))))
    · dsimp only at h
      intro i post hb hp
      rcases h with ⟨w, hw, rfl, rfl⟩ | ⟨w, hw, rfl, rfl⟩ | ⟨it, hne, hit, rfl, rfl⟩ | ⟨it, hne, hit, rfl, rfl⟩
      · rw [value_open hb (.inl rfl), nested, if_pos rfl]
        have hb1 : buf.drop (i + 1) = w ++ 0x5D :: post := by rw [(drop_cons hb).2.2]; simp
        unfold array
        dsimp only
        rw [skipWs_ws hw (by decide) hb1, isAt_drop (drop_append hb1), if_pos (by decide)]
        simp only [List.length_append, List.length_cons, List.length_nil]
        congr 2
        omega
      · rw [value_open hb (.inr rfl), nested, if_neg (by decide), if_pos rfl]
        have hb1 : buf.drop (i + 1) = w ++ 0x7D :: post := by rw [(drop_cons hb).2.2]; simp
        unfold object
        dsimp only
        rw [skipWs_ws hw (by decide) hb1, isAt_drop (drop_append hb1), if_pos (by decide)]
        simp only [List.length_append, List.length_cons, List.length_nil]
        congr 2
        omega
      · rw [value_open hb (.inl rfl), nested, if_pos rfl]
        exact array_items it hne (fun x hx => ⟨(hit x hx).1, ih _ _ (hit x hx).2.1, lax_head (hit x hx).2.1, (hit x hx).2.2⟩) i post
          (by rw [hb, List.append_assoc]; rfl)
      · rw [value_open hb (.inr rfl), nested, if_neg (by decide), if_pos rfl]
        exact object_items it hne (fun x hx => ⟨(hit x hx).1, literal_strAt (hit x hx).2.1, (hit x hx).2.2.1, (hit x hx).2.2.2.1,
          ih _ _ (hit x hx).2.2.2.2.1, lax_head (hit x hx).2.2.2.2.1, (hit x hx).2.2.2.2.2⟩) i post (by rw [hb, List.append_assoc]; rfl)

/-- For an array or an object it does not matter what follows. -/
theorem value_container {V : Type} {strtod : List UInt8 → Nat × V} {buf : List UInt8} {n : Nat} {s : List UInt8} {j : J V} (h : Lax.Val strtod n s j)
    (hc : Container j) {i : Nat} {post : List UInt8} (hb : buf.drop i = s ++ post) : value strtod buf n i = .ok (j, i + s.length) := by
  cases n with
  | zero =>
    unfold Lax.Val at h
    rcases h with ⟨_, rfl⟩ | ⟨_, rfl⟩ | ⟨_, rfl⟩ | ⟨v, _, rfl⟩ | ⟨b, o, _, _, rfl⟩ | h
    all_goals first | exact hc.elim | exact h.elim
  | succ n =>
    unfold Lax.Val at h
    rcases h with ⟨_, rfl⟩ | ⟨_, rfl⟩ | ⟨_, rfl⟩ | ⟨v, _, rfl⟩ | ⟨b, o, _, _, rfl⟩ | h
    · exact hc.elim
    · exact hc.elim
    · exact hc.elim
    · exact hc.elim
    · exact hc.elim
    · dsimp only at h
      rcases h with ⟨w, hw, rfl, rfl⟩ | ⟨w, hw, rfl, rfl⟩ | ⟨it, hne, hit, rfl, rfl⟩ | ⟨it, hne, hit, rfl, rfl⟩
      · rw [value_open hb (.inl rfl), nested, if_pos rfl]
        have hb1 : buf.drop (i + 1) = w ++ 0x5D :: post := by rw [(drop_cons hb).2.2]; simp
        unfold array
        dsimp only
        rw [skipWs_ws hw (by decide) hb1, isAt_drop (drop_append hb1), if_pos (by decide)]
        simp only [List.length_append, List.length_cons, List.length_nil]
        congr 2
        omega
      · rw [value_open hb (.inr rfl), nested, if_neg (by decide), if_pos rfl]
        have hb1 : buf.drop (i + 1) = w ++ 0x7D :: post := by rw [(drop_cons hb).2.2]; simp
        unfold object
        dsimp only
        rw [skipWs_ws hw (by decide) hb1, isAt_drop (drop_append hb1), if_pos (by decide)]
        simp only [List.length_append, List.length_cons, List.length_nil]
        congr 2
        omega
      · rw [value_open hb (.inl rfl), nested, if_pos rfl]
        exact array_items it hne (fun x hx => ⟨(hit x hx).1, value_complete n _ _ (hit x hx).2.1, lax_head (hit x hx).2.1, (hit x hx).2.2⟩) i post
          (by rw [hb, List.append_assoc]; rfl)
      · rw [value_open hb (.inr rfl), nested, if_neg (by decide), if_pos rfl]
        exact object_items it hne (fun x hx => ⟨(hit x hx).1, literal_strAt (hit x hx).2.1, (hit x hx).2.2.1, (hit x hx).2.2.2.1,
          value_complete n _ _ (hit x hx).2.2.2.2.1, lax_head (hit x hx).2.2.2.2.1, (hit x hx).2.2.2.2.2⟩) i post (by rw [hb, List.append_assoc]; rfl)

end Verif.CJson
