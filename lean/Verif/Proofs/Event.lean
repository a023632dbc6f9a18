import Verif.Spec.Event
namespace Verif.Event

theorem upd_same {α : Type} (f : Nat → α) (i : Nat) (v : α) : upd f i v i = v := by simp [upd]
theorem upd_ne {α : Type} (f : Nat → α) {i j : Nat} (v : α) (h : j ≠ i) : upd f i v j = f j := by simp [upd, h]

theorem expand_append (a b : List (Nat × Bool × Bool)) : expand (a ++ b) = expand a ++ expand b := by
  induction a with
  | nil => rfl
  | cons e a ih => obtain ⟨id, r, w⟩ := e; simp [expand, ih]

theorem mem_expand {a : List (Nat × Bool × Bool)} {p : Nat × Dir} (h : p ∈ expand a) :
    ∃ e ∈ a, e.1 = p.1 ∧ (p.2 = .r → e.2.1 = true) ∧ (p.2 = .w → e.2.2 = true) := by
  induction a with
  | nil => simp [expand] at h
  | cons e a ih =>
    obtain ⟨id, r, w⟩ := e
    simp only [expand, List.mem_append] at h
    rcases h with h | h | h
    · cases r <;> simp at h
      subst h
      exact ⟨(id, true, w), by simp, rfl, by simp, by simp⟩
    · cases w <;> simp at h
      subst h
      exact ⟨(id, r, true), by simp, rfl, by simp, by simp⟩
    · obtain ⟨e, he, h⟩ := ih h
      exact ⟨e, List.mem_cons_of_mem _ he, h⟩

theorem expand_nodup {a : List (Nat × Bool × Bool)} (h : (a.map (·.1)).Nodup) : (expand a).Nodup := by
  induction a with
  | nil => simp [expand]
  | cons e a ih =>
    obtain ⟨id, r, w⟩ := e
    simp only [List.map_cons, List.nodup_cons] at h
    have hn : ∀ d, (id, d) ∉ expand a := by
      intro d hc
      obtain ⟨e, he, h1, -⟩ := mem_expand hc
      exact h.1 (List.mem_map.mpr ⟨e, he, h1⟩)
    have := ih h.2
    cases r <;> cases w <;> simp [expand, hn, this]

/-- What collecting has done: `P` are the reports handled so far, `s0` the state before. -/
structure K (s0 s : St) (P : List (Nat × Bool × Bool)) : Prop where
  alive : s.alive = s0.alive
  gen : s.gen = s0.gen
  evn : s.evn = (expand P).length
  slots : ∀ j p, (expand P)[j]? = some p → s.evs j = some ⟨p.1, s0.gen p.1, p.2⟩
  other : ∀ id, id ∉ P.map (·.1) → s.ev id = s0.ev id
  rd : ∀ e ∈ P, if e.2.1 then (s.ev e.1).fread = true ∧ (expand P)[(s.ev e.1).idxr]? = some (e.1, .r)
        else (s.ev e.1).fread = (s0.ev e.1).fread ∧ (s.ev e.1).idxr = 0
  wr : ∀ e ∈ P, if e.2.2 then (s.ev e.1).fwrite = true ∧ (expand P)[(s.ev e.1).idxw]? = some (e.1, .w)
        else (s.ev e.1).fwrite = (s0.ev e.1).fwrite ∧ (s.ev e.1).idxw = 0
  rw : ∀ e ∈ P, e.2.1 = true → e.2.2 = true → (s.ev e.1).idxr < (s.ev e.1).idxw

theorem collect1_K {s0 s : St} {P : List (Nat × Bool × Bool)} (k : K s0 s P) (e : Nat × Bool × Bool) (he : e.1 ∉ P.map (·.1)) :
    K s0 (collect1 s e) (P ++ [e]) := by
  obtain ⟨id, r, w⟩ := e
  simp only at he
  have hex : expand (P ++ [(id, r, w)]) = expand P ++ ((if r then [(id, .r)] else []) ++ (if w then [(id, .w)] else [])) := by
    rw [expand_append]; simp [expand]
  have hid : ∀ e ∈ P, e.1 ≠ id := fun e h hc => he (List.mem_map.mpr ⟨e, h, hc⟩)
  have hold := k.other id he
  have hlt : ∀ {j : Nat} {p : Nat × Dir}, (expand P)[j]? = some p → j < (expand P).length :=
    fun h => (List.getElem?_eq_some_iff.mp h).1
  have hev : ∀ x, x ≠ id → (collect1 s (id, r, w)).ev x = s.ev x := by
    intro x hx
    cases r <;> cases w <;> simp [collect1, St.push, upd, hx]
  have hrev : (collect1 s (id, r, w)).ev id =
      ⟨if r then s.evn else 0, if w then (if r then s.evn + 1 else s.evn) else 0, r || (s.ev id).fread, w || (s.ev id).fwrite⟩ := by
    cases r <;> cases w <;> simp [collect1, St.push, upd]
  refine ⟨?_, ?_, ?_, ?_, ?_, ?_, ?_, ?_⟩
  · cases r <;> cases w <;> simp [collect1, St.push, k.alive]
  · cases r <;> cases w <;> simp [collect1, St.push, k.gen]
  · rw [hex]; cases r <;> cases w <;> simp [collect1, St.push, k.evn]
  · intro j p hp
    rw [hex] at hp
    by_cases hj : j < (expand P).length
    · rw [List.getElem?_append_left hj] at hp
      have := k.slots j p hp
      have h1 : j ≠ s.evn := by have := k.evn; omega
      have h2 : j ≠ s.evn + 1 := by have := k.evn; omega
      cases r <;> cases w <;> simp [collect1, St.push, upd, h1, h2, this]
    · rw [List.getElem?_append_right (by omega)] at hp
      have hg := k.gen
      have hn := k.evn
      cases r <;> cases w
      · simp at hp
      · simp only [Bool.false_eq_true, if_false, if_true, List.nil_append] at hp
        have hj0 : j - (expand P).length = 0 := by
          have := (List.getElem?_eq_some_iff.mp hp).1; simp only [List.length_singleton] at this; omega
        rw [hj0] at hp
        simp only [List.getElem?_cons_zero, Option.some.injEq] at hp
        subst hp
        have : j = s.evn := by omega
        simp [collect1, St.push, upd, this, hg]
      · simp only [Bool.false_eq_true, if_false, if_true, List.append_nil] at hp
        have hj0 : j - (expand P).length = 0 := by
          have := (List.getElem?_eq_some_iff.mp hp).1; simp only [List.length_singleton] at this; omega
        rw [hj0] at hp
        simp only [List.getElem?_cons_zero, Option.some.injEq] at hp
        subst hp
        have : j = s.evn := by omega
        simp [collect1, St.push, upd, this, hg]
      · simp only [if_true, List.cons_append, List.nil_append] at hp
        have hj1 := (List.getElem?_eq_some_iff.mp hp).1
        simp only [List.length_cons, List.length_nil] at hj1
        by_cases hz : j - (expand P).length = 0
        · rw [hz] at hp
          simp only [List.getElem?_cons_zero, Option.some.injEq] at hp
          subst hp
          have : j = s.evn := by omega
          simp [collect1, St.push, upd, this, hg]
        · have hz : j - (expand P).length = 1 := by omega
          rw [hz] at hp
          simp only [List.getElem?_cons_succ, List.getElem?_cons_zero, Option.some.injEq] at hp
          subst hp
          have : j = s.evn + 1 := by omega
          simp [collect1, St.push, upd, this, hg]
  · intro x hx
    simp only [List.map_append, List.map_cons, List.map_nil, List.mem_append, List.mem_singleton, not_or] at hx
    rw [hev x hx.2]
    exact k.other x hx.1
  · intro e he'
    rcases List.mem_append.mp he' with h | h
    · have := k.rd e h
      rw [hev _ (hid e h), hex]
      split
      · rename_i hr
        rw [if_pos hr] at this
        exact ⟨this.1, by rw [List.getElem?_append_left (hlt this.2)]; exact this.2⟩
      · rename_i hr
        rw [if_neg hr] at this
        exact this
    · simp only [List.mem_singleton] at h
      subst h
      simp only [hrev, hex, hold]
      cases r
      · simp
      · simp [k.evn]
  · intro e he'
    rcases List.mem_append.mp he' with h | h
    · have := k.wr e h
      rw [hev _ (hid e h), hex]
      split
      · rename_i hr
        rw [if_pos hr] at this
        exact ⟨this.1, by rw [List.getElem?_append_left (hlt this.2)]; exact this.2⟩
      · rename_i hr
        rw [if_neg hr] at this
        exact this
    · simp only [List.mem_singleton] at h
      subst h
      simp only [hrev, hex, hold]
      cases w
      · simp
      · cases r
        · simp [k.evn]
        · simp [k.evn]
  · intro e he' h1 h2
    rcases List.mem_append.mp he' with h | h
    · rw [hev _ (hid e h)]; exact k.rw e h h1 h2
    · simp only [List.mem_singleton] at h
      subst h
      simp only at h1 h2
      rw [hrev, h1, h2]
      simp

theorem collect_K (s : St) (rep : List (Nat × Bool × Bool)) (h : (rep.map (·.1)).Nodup) : K s (collect s rep) rep := by
  have : ∀ (rest P : List (Nat × Bool × Bool)) (t : St), ((P ++ rest).map (·.1)).Nodup → K s t P →
      K s (rest.foldl collect1 t) (P ++ rest) := by
    intro rest
    induction rest with
    | nil => intro P t _ k; simpa using k
    | cons e rest ih =>
      intro P t hn k
      rw [List.foldl_cons]
      have hn' : ((P ++ [e] ++ rest).map (·.1)).Nodup := by simpa using hn
      have he : e.1 ∉ P.map (·.1) := by
        simp only [List.map_append, List.map_cons] at hn
        have := (List.nodup_append.mp hn).2.2
        intro hc
        exact this _ hc _ (by simp) rfl
      have := ih (P ++ [e]) _ hn' (collect1_K k e he)
      simpa using this
  have := this rep [] { s with evn := 0 } (by simpa using h)
    ⟨rfl, rfl, rfl, by simp [expand], fun _ _ => rfl, by simp, by simp, by simp⟩
  simpa [collect] using this

/-- Invariant of the dispatch loop before entry `i`, `n` entries: pending entries belong to live, unreleased events and are recorded in them. -/
def Inv (s : St) (i n : Nat) : Prop :=
  ∀ j, i ≤ j → j < n → ∀ x, s.evs j = some x →
    s.alive x.id = true ∧ s.gen x.id = x.gen ∧
      (x.dir = .r → (s.ev x.id).idxr = j) ∧ (x.dir = .w → (s.ev x.id).idxw = j)

theorem collect_inv (s : St) (rep : List (Nat × Bool × Bool)) (h : (rep.map (·.1)).Nodup) (ha : ∀ e ∈ rep, s.alive e.1 = true) :
    Inv (collect s rep) 0 (collect s rep).evn := by
  have k := collect_K s rep h
  intro j _ hj x hx
  rw [k.evn] at hj
  have hp : (expand rep)[j]? = some (expand rep)[j] := List.getElem?_eq_getElem hj
  have hs := k.slots j _ hp
  rw [hx] at hs
  obtain ⟨e, he, h1, h2, h3⟩ := mem_expand (List.getElem_mem hj)
  simp only [Option.some.injEq] at hs
  have hid : x.id = e.1 := by rw [hs, h1]
  have hg : x.gen = s.gen x.id := by rw [hs]
  have hd : x.dir = ((expand rep)[j]).2 := by rw [hs]
  have hpe : ∀ d, x.dir = d → (expand rep)[j]? = some (e.1, d) := by
    intro d hd'
    rw [hp, Option.some.injEq, Prod.ext_iff]
    exact ⟨h1.symm, by rw [← hd, hd']⟩
  refine ⟨by rw [k.alive, hid]; exact ha e he, by rw [k.gen, hg], fun hdr => ?_, fun hdw => ?_⟩
  · have hr := k.rd e he
    rw [if_pos (h2 (hd ▸ hdr))] at hr
    rw [hid]
    exact ((List.getElem?_inj hj (expand_nodup h)).mp (by rw [hpe _ hdr, hr.2])).symm
  · have hr := k.wr e he
    rw [if_pos (h3 (hd ▸ hdw))] at hr
    rw [hid]
    exact ((List.getElem?_inj hj (expand_nodup h)).mp (by rw [hpe _ hdw, hr.2])).symm

theorem free_evs {s : St} {id j : Nat} {x : Slot} (h : (free s id).evs j = some x) :
    s.evs j = some x ∧ ((s.ev id).idxr ≠ 0 → j ≠ (s.ev id).idxr) ∧ ((s.ev id).idxw ≠ 0 → j ≠ (s.ev id).idxw) := by
  simp only [free] at h
  by_cases h1 : (s.ev id).idxr ≠ 0 <;> by_cases h2 : (s.ev id).idxw ≠ 0
  · rw [if_pos h2, if_pos h1] at h
    by_cases hj : j = (s.ev id).idxw
    · rw [hj, upd_same] at h; simp at h
    · rw [upd_ne _ _ hj] at h
      by_cases hj' : j = (s.ev id).idxr
      · rw [hj', upd_same] at h; simp at h
      · rw [upd_ne _ _ hj'] at h
        exact ⟨h, fun _ => hj', fun _ => hj⟩
  · rw [if_neg h2, if_pos h1] at h
    by_cases hj' : j = (s.ev id).idxr
    · rw [hj', upd_same] at h; simp at h
    · rw [upd_ne _ _ hj'] at h
      exact ⟨h, fun _ => hj', fun hc => absurd hc h2⟩
  · rw [if_pos h2, if_neg h1] at h
    by_cases hj : j = (s.ev id).idxw
    · rw [hj, upd_same] at h; simp at h
    · rw [upd_ne _ _ hj] at h
      exact ⟨h, fun hc => absurd hc h1, fun _ => hj⟩
  · rw [if_neg h2, if_neg h1] at h
    exact ⟨h, fun hc => absurd hc h1, fun hc => absurd hc h2⟩

/-- After a release no pending entry belongs to the released event. -/
theorem free_gone {s : St} {i n id : Nat} (inv : Inv s (i + 1) n) {j : Nat} (h1 : i + 1 ≤ j) (h2 : j < n) {x : Slot}
    (hx : (free s id).evs j = some x) : x.id ≠ id := by
  obtain ⟨h, hr, hw⟩ := free_evs hx
  obtain ⟨-, -, a, b⟩ := inv j h1 h2 x h
  intro hc
  subst hc
  cases hd : x.dir with
  | r => have := a hd; exact hr (by omega) this.symm
  | w => have := b hd; exact hw (by omega) this.symm

theorem act_inv {s : St} {i n : Nat} (inv : Inv s (i + 1) n) (a : Act) : Inv (act s a) (i + 1) n := by
  cases a with
  | free id =>
    simp only [act]
    split
    · intro j h1 h2 x hx
      have hne := free_gone inv h1 h2 hx
      obtain ⟨h, -, -⟩ := free_evs hx
      have := inv j h1 h2 x h
      simp only [free]
      rw [upd_ne _ _ hne, upd_ne _ _ hne]
      exact this
    · exact inv
  | alloc id =>
    simp only [act]
    split
    · exact inv
    · rename_i ha
      intro j h1 h2 x hx
      have := inv j h1 h2 x hx
      have hne : x.id ≠ id := by rintro rfl; exact ha this.1
      simp only [alloc]
      rw [upd_ne _ _ hne, upd_ne _ _ hne]
      exact this

theorem acts_inv {i n : Nat} (as : List Act) {s : St} (inv : Inv s (i + 1) n) : Inv (as.foldl act s) (i + 1) n := by
  induction as generalizing s with
  | nil => exact inv
  | cons a as ih => exact ih (act_inv inv a)

theorem body_inv {s : St} {i n : Nat} (inv : Inv s i n) : Inv (body s i).1 (i + 1) n := by
  have aux : ∀ (id : Nat) (e : Ev), e.idxr = (s.ev id).idxr → e.idxw = (s.ev id).idxw →
      Inv { s with ev := upd s.ev id e } (i + 1) n := by
    intro id e h1 h2 j hj hn x hx
    have := inv j (by omega) hn x hx
    by_cases hc : x.id = id
    · simp only [hc, upd_same, h1, h2]; rw [hc] at this; exact this
    · simp only [upd_ne _ _ hc]; exact this
  unfold body
  split
  · intro j h1 h2; exact inv j (by omega) h2
  · simp only
    split
    · exact aux _ _ rfl rfl
    · split
      · exact aux _ _ rfl rfl
      · intro j h1 h2; exact inv j (by omega) h2

theorem body_call {s s' : St} {i n : Nat} (inv : Inv s i n) (hi : i < n) {c : Call} (h : body s i = (s', some c)) :
    c.alive = true ∧ c.gen = c.slotGen := by
  unfold body at h
  split at h
  · simp at h
  · rename_i x hx
    have := inv i (Nat.le_refl _) hi x hx
    simp only at h
    split at h
    · simp only [Prod.mk.injEq, Option.some.injEq] at h
      rw [← h.2]; exact ⟨this.1, this.2.1⟩
    · split at h
      · simp only [Prod.mk.injEq, Option.some.injEq] at h
        rw [← h.2]; exact ⟨this.1, this.2.1⟩
      · simp at h

theorem loop_calls (h : Nat → List Act) (k i : Nat) (s : St) (inv : Inv s i (i + k)) :
    ∀ c ∈ (loop h k i s).2, c.alive = true ∧ c.gen = c.slotGen := by
  induction k generalizing i s with
  | zero => simp [loop]
  | succ k ih =>
    have e : i + (k + 1) = (i + 1) + k := by omega
    have hb := body_inv inv
    cases hbd : body s i with
    | mk s' o =>
      rw [hbd] at hb
      cases o with
      | none => simp only [loop, hbd]; exact ih _ _ (e ▸ hb)
      | some c =>
        simp only [loop, hbd, List.mem_cons]
        rintro c' (rfl | hc)
        · exact body_call inv (by omega) hbd
        · exact ih _ _ (e ▸ acts_inv _ hb) c' hc

/-- Invariant for delivery: `Inv`, the flags agree with the pending entries, and no live event records an entry of another one. -/
structure J (s : St) (i n : Nat) : Prop where
  inv : Inv s i n
  fr : ∀ id, s.alive id = true → (s.ev id).fread = true → ∃ j g, i ≤ j ∧ j < n ∧ s.evs j = some ⟨id, g, .r⟩
  fw : ∀ id, s.alive id = true → (s.ev id).fwrite = true → ∃ j g, i ≤ j ∧ j < n ∧ s.evs j = some ⟨id, g, .w⟩
  pr : ∀ j x, i ≤ j → j < n → s.evs j = some x → x.dir = .r → (s.ev x.id).fread = true
  pw : ∀ j x, i ≤ j → j < n → s.evs j = some x → x.dir = .w → (s.ev x.id).fwrite = true
  ord : ∀ j k id g g', i ≤ j → j < n → i ≤ k → k < n → s.evs j = some ⟨id, g, .r⟩ → s.evs k = some ⟨id, g', .w⟩ → j < k
  ownr : ∀ id x, s.alive id = true → (s.ev id).idxr ≠ 0 → i ≤ (s.ev id).idxr → (s.ev id).idxr < n →
    s.evs (s.ev id).idxr = some x → x.id = id
  ownw : ∀ id x, s.alive id = true → (s.ev id).idxw ≠ 0 → i ≤ (s.ev id).idxw → (s.ev id).idxw < n →
    s.evs (s.ev id).idxw = some x → x.id = id

theorem act_J {s : St} {i n : Nat} (J0 : J s (i + 1) n) (a : Act) : J (act s a) (i + 1) n := by
  have inv' := act_inv J0.inv a
  cases a with
  | free id =>
    simp only [act] at inv' ⊢
    split
    · rename_i hal
      rw [if_pos hal] at inv'
      -- entries of other events survive
      have keep : ∀ j x, i + 1 ≤ j → j < n → s.evs j = some x → x.id ≠ id → (free s id).evs j = some x := by
        intro j x h1 h2 hx hne
        have hjr : j ≠ (s.ev id).idxr ∨ (s.ev id).idxr = 0 := by
          by_cases h : j = (s.ev id).idxr
          · refine absurd ?_ hne
            exact J0.ownr id x hal (by omega) (by omega) (by omega) (h ▸ hx)
          · exact .inl h
        have hjw : j ≠ (s.ev id).idxw ∨ (s.ev id).idxw = 0 := by
          by_cases h : j = (s.ev id).idxw
          · refine absurd ?_ hne
            exact J0.ownw id x hal (by omega) (by omega) (by omega) (h ▸ hx)
          · exact .inl h
        simp only [free]
        by_cases hr : (s.ev id).idxr ≠ 0 <;> by_cases hw : (s.ev id).idxw ≠ 0
        · rw [if_pos hw, if_pos hr, upd_ne _ _ (by omega), upd_ne _ _ (by omega)]; exact hx
        · rw [if_neg hw, if_pos hr, upd_ne _ _ (by omega)]; exact hx
        · rw [if_pos hw, if_neg hr, upd_ne _ _ (by omega)]; exact hx
        · rw [if_neg hw, if_neg hr]; exact hx
      have hal' : ∀ x, (free s id).alive x = true → x ≠ id ∧ s.alive x = true := by
        intro x hx
        simp only [free, upd] at hx
        split at hx
        · simp at hx
        · rename_i h; exact ⟨h, hx⟩
      have hev : (free s id).ev = s.ev := rfl
      refine ⟨inv', ?_, ?_, ?_, ?_, ?_, ?_, ?_⟩
      · intro x hx hf
        obtain ⟨h1, h2⟩ := hal' x hx
        obtain ⟨j, g, a, b, c⟩ := J0.fr x h2 hf
        exact ⟨j, g, a, b, keep j _ a b c h1⟩
      · intro x hx hf
        obtain ⟨h1, h2⟩ := hal' x hx
        obtain ⟨j, g, a, b, c⟩ := J0.fw x h2 hf
        exact ⟨j, g, a, b, keep j _ a b c h1⟩
      · intro j x h1 h2 hx; exact J0.pr j x h1 h2 (free_evs hx).1
      · intro j x h1 h2 hx; exact J0.pw j x h1 h2 (free_evs hx).1
      · intro j k id' g g' h1 h2 h3 h4 ha hb
        exact J0.ord j k id' g g' h1 h2 h3 h4 (free_evs ha).1 (free_evs hb).1
      · intro x y hx h1 h2 h3 hy
        exact J0.ownr x y (hal' x hx).2 h1 h2 h3 (free_evs hy).1
      · intro x y hx h1 h2 h3 hy
        exact J0.ownw x y (hal' x hx).2 h1 h2 h3 (free_evs hy).1
    · exact J0
  | alloc id =>
    simp only [act] at inv' ⊢
    split
    · exact J0
    · rename_i hal
      rw [if_neg hal] at inv'
      have hne : ∀ j x, i + 1 ≤ j → j < n → s.evs j = some x → x.id ≠ id := by
        intro j x h1 h2 hx hc
        have := (J0.inv j h1 h2 x hx).1
        rw [hc] at this
        exact hal this
      refine ⟨inv', ?_, ?_, ?_, ?_, J0.ord, ?_, ?_⟩
      · intro x hx hf
        by_cases h : x = id
        · subst h; simp [alloc, upd] at hf
        · simp only [alloc, upd_ne _ _ h] at hx hf
          exact J0.fr x hx hf
      · intro x hx hf
        by_cases h : x = id
        · subst h; simp [alloc, upd] at hf
        · simp only [alloc, upd_ne _ _ h] at hx hf
          exact J0.fw x hx hf
      · intro j x h1 h2 hx hd
        simp only [alloc, upd_ne _ _ (hne j x h1 h2 hx)]
        exact J0.pr j x h1 h2 hx hd
      · intro j x h1 h2 hx hd
        simp only [alloc, upd_ne _ _ (hne j x h1 h2 hx)]
        exact J0.pw j x h1 h2 hx hd
      · intro x y hx h1 h2 h3 hy
        by_cases h : x = id
        · subst h; simp [alloc, upd] at h1
        · simp only [alloc, upd_ne _ _ h] at hx h1 h2 h3 hy
          exact J0.ownr x y hx h1 h2 h3 hy
      · intro x y hx h1 h2 h3 hy
        by_cases h : x = id
        · subst h; simp [alloc, upd] at h1
        · simp only [alloc, upd_ne _ _ h] at hx h1 h2 h3 hy
          exact J0.ownw x y hx h1 h2 h3 hy

theorem acts_J {i n : Nat} (as : List Act) {s : St} (h : J s (i + 1) n) : J (as.foldl act s) (i + 1) n := by
  induction as generalizing s with
  | nil => exact h
  | cons a as ih => exact ih (act_J h a)

/-- The body calls exactly the handler of the pending entry. -/
theorem body_J {s : St} {i n : Nat} (J0 : J s i n) (hi : i < n) :
    J (body s i).1 (i + 1) n ∧
    (s.evs i = none → (body s i).2 = none) ∧
    (∀ x, s.evs i = some x → ∃ c, (body s i).2 = some c ∧ c.id = x.id ∧ c.dir = x.dir) ∧
    (body s i).1.evs = s.evs ∧ (body s i).1.gen = s.gen := by
  have inv' := body_inv J0.inv
  cases hx : s.evs i with
  | none =>
    have hb : body s i = (s, none) := by simp only [body, hx]
    rw [hb] at inv' ⊢
    have hne : ∀ j x, i ≤ j → s.evs j = some x → i + 1 ≤ j := by
      intro j x h1 h2
      rcases Nat.eq_or_lt_of_le h1 with h | h
      · subst h; rw [hx] at h2; simp at h2
      · exact h
    refine ⟨⟨inv', ?_, ?_, ?_, ?_, ?_, ?_, ?_⟩, fun _ => rfl, by simp, rfl, rfl⟩
    · intro id a b
      obtain ⟨j, g, h1, h2, h3⟩ := J0.fr id a b
      exact ⟨j, g, hne j _ h1 h3, h2, h3⟩
    · intro id a b
      obtain ⟨j, g, h1, h2, h3⟩ := J0.fw id a b
      exact ⟨j, g, hne j _ h1 h3, h2, h3⟩
    · intro j x h; exact J0.pr j x (by omega)
    · intro j x h; exact J0.pw j x (by omega)
    · intro j k id g g' h1 h2 h3; exact J0.ord j k id g g' (by omega) h2 (by omega)
    · intro id x a b c; exact J0.ownr id x a b (Nat.le_of_succ_le c)
    · intro id x a b c; exact J0.ownw id x a b (Nat.le_of_succ_le c)
  | some x =>
    obtain ⟨ial, ig, ir, iw⟩ := J0.inv i (Nat.le_refl _) hi x hx
    cases hd : x.dir with
    | r =>
      have hf := J0.pr i x (Nat.le_refl _) hi hx hd
      have hb : body s i = ({ s with ev := upd s.ev x.id { s.ev x.id with fread := false } },
          some ⟨x.id, .r, s.alive x.id, s.gen x.id, x.gen⟩) := by
        simp only [body, hx, hf, if_true]
      rw [hb] at inv' ⊢
      have hidx : ∀ id, (upd s.ev x.id { s.ev x.id with fread := false } id).idxr = (s.ev id).idxr ∧
          (upd s.ev x.id { s.ev x.id with fread := false } id).idxw = (s.ev id).idxw ∧
          (upd s.ev x.id { s.ev x.id with fread := false } id).fwrite = (s.ev id).fwrite := by
        intro id; simp only [upd]; split
        · rename_i h; subst h; simp
        · simp
      refine ⟨⟨inv', ?_, ?_, ?_, ?_, ?_, ?_, ?_⟩, by simp, fun y hy => ?_, rfl, rfl⟩
      · intro id a b
        by_cases h : id = x.id
        · subst h; simp [upd] at b
        · simp only [upd_ne _ _ h] at b
          obtain ⟨j, g, h1, h2, h3⟩ := J0.fr id a b
          refine ⟨j, g, ?_, h2, h3⟩
          rcases Nat.eq_or_lt_of_le h1 with e | e
          · subst e; rw [hx] at h3; simp only [Option.some.injEq] at h3; rw [h3] at h; exact absurd rfl h
          · exact e
      · intro id a b
        rw [(hidx id).2.2] at b
        obtain ⟨j, g, h1, h2, h3⟩ := J0.fw id a b
        refine ⟨j, g, ?_, h2, h3⟩
        rcases Nat.eq_or_lt_of_le h1 with e | e
        · subst e; rw [hx] at h3; simp only [Option.some.injEq] at h3; rw [h3] at hd; simp at hd
        · exact e
      · intro j y h1 h2 hy hdy
        by_cases h : y.id = x.id
        · exfalso
          have := (J0.inv j (by omega) h2 y hy).2.2.1 hdy
          have h' := ir hd
          rw [h] at this; omega
        · simp only [upd_ne _ _ h]; exact J0.pr j y (by omega) h2 hy hdy
      · intro j y h1 h2 hy hdy
        rw [(hidx y.id).2.2]; exact J0.pw j y (by omega) h2 hy hdy
      · intro j k id g g' h1 h2 h3; exact J0.ord j k id g g' (by omega) h2 (by omega)
      · intro id y a; simp only [(hidx id).1]; intro b c; exact J0.ownr id y a b (by omega)
      · intro id y a; simp only [(hidx id).2.1]; intro b c; exact J0.ownw id y a b (by omega)
      · simp only [Option.some.injEq] at hy; subst hy; exact ⟨_, rfl, rfl, hd.symm⟩
    | w =>
      have hf := J0.pw i x (Nat.le_refl _) hi hx hd
      have hnr : (s.ev x.id).fread = false := by
        cases hc : (s.ev x.id).fread with
        | false => rfl
        | true =>
          exfalso
          obtain ⟨j, g, h1, h2, h3⟩ := J0.fr x.id ial hc
          have hx' : s.evs i = some ⟨x.id, x.gen, .w⟩ := by rw [hx, ← hd]
          have := J0.ord j i x.id g x.gen h1 h2 (Nat.le_refl _) hi h3 hx'
          omega
      have hb : body s i = ({ s with ev := upd s.ev x.id { s.ev x.id with fwrite := false } },
          some ⟨x.id, .w, s.alive x.id, s.gen x.id, x.gen⟩) := by
        simp only [body, hx, hf, hnr, if_true, Bool.false_eq_true, if_false]
      rw [hb] at inv' ⊢
      have hidx : ∀ id, (upd s.ev x.id { s.ev x.id with fwrite := false } id).idxr = (s.ev id).idxr ∧
          (upd s.ev x.id { s.ev x.id with fwrite := false } id).idxw = (s.ev id).idxw ∧
          (upd s.ev x.id { s.ev x.id with fwrite := false } id).fread = (s.ev id).fread := by
        intro id; simp only [upd]; split
        · rename_i h; subst h; simp
        · simp
      refine ⟨⟨inv', ?_, ?_, ?_, ?_, ?_, ?_, ?_⟩, by simp, fun y hy => ?_, rfl, rfl⟩
      · intro id a b
        rw [(hidx id).2.2] at b
        obtain ⟨j, g, h1, h2, h3⟩ := J0.fr id a b
        refine ⟨j, g, ?_, h2, h3⟩
        rcases Nat.eq_or_lt_of_le h1 with e | e
        · subst e; rw [hx] at h3; simp only [Option.some.injEq] at h3; rw [h3] at hd; simp at hd
        · exact e
      · intro id a b
        by_cases h : id = x.id
        · subst h; simp [upd] at b
        · simp only [upd_ne _ _ h] at b
          obtain ⟨j, g, h1, h2, h3⟩ := J0.fw id a b
          refine ⟨j, g, ?_, h2, h3⟩
          rcases Nat.eq_or_lt_of_le h1 with e | e
          · subst e; rw [hx] at h3; simp only [Option.some.injEq] at h3; rw [h3] at h; exact absurd rfl h
          · exact e
      · intro j y h1 h2 hy hdy
        rw [(hidx y.id).2.2]; exact J0.pr j y (by omega) h2 hy hdy
      · intro j y h1 h2 hy hdy
        by_cases h : y.id = x.id
        · exfalso
          have := (J0.inv j (by omega) h2 y hy).2.2.2 hdy
          have h' := iw hd
          rw [h] at this; omega
        · simp only [upd_ne _ _ h]; exact J0.pw j y (by omega) h2 hy hdy
      · intro j k id g g' h1 h2 h3; exact J0.ord j k id g g' (by omega) h2 (by omega)
      · intro id y a; simp only [(hidx id).1]; intro b c; exact J0.ownr id y a b (by omega)
      · intro id y a; simp only [(hidx id).2.1]; intro b c; exact J0.ownw id y a b (by omega)
      · simp only [Option.some.injEq] at hy; subst hy; exact ⟨_, rfl, rfl, hd.symm⟩

theorem act_gen (s : St) (a : Act) (id : Nat) : s.gen id ≤ (act s a).gen id := by
  cases a with
  | free k =>
    simp only [act]; split
    · simp only [free, upd]; split
      · rename_i h; subst h; omega
      · exact Nat.le_refl _
    · exact Nat.le_refl _
  | alloc k => simp only [act]; split <;> exact Nat.le_refl _

theorem acts_gen (as : List Act) (s : St) (id : Nat) : s.gen id ≤ (as.foldl act s).gen id := by
  induction as generalizing s with
  | nil => exact Nat.le_refl _
  | cons a as ih => exact Nat.le_trans (act_gen s a id) (ih _)

/-- An entry disappears only by the release of its own event, and none appears. -/
theorem act_keep {s : St} {i n : Nat} (J0 : J s (i + 1) n) (a : Act) {j : Nat} (h1 : i + 1 ≤ j) (h2 : j < n) :
    ((act s a).evs j = s.evs j) ∨ ∃ x, s.evs j = some x ∧ (act s a).evs j = none ∧ s.gen x.id < (act s a).gen x.id := by
  cases a with
  | alloc id => simp only [act]; split <;> exact .inl rfl
  | free id =>
    simp only [act]
    split
    · rename_i hal
      cases hn : (free s id).evs j with
      | some y => exact .inl (free_evs hn).1.symm
      | none =>
        cases hx : s.evs j with
        | none => exact .inl rfl
        | some x =>
          refine .inr ⟨x, rfl, rfl, ?_⟩
          have hid : x.id = id := by
            by_cases hr : (s.ev id).idxr ≠ 0 ∧ j = (s.ev id).idxr
            · exact J0.ownr id x hal hr.1 (by omega) (by omega) (hr.2 ▸ hx)
            · by_cases hw : (s.ev id).idxw ≠ 0 ∧ j = (s.ev id).idxw
              · exact J0.ownw id x hal hw.1 (by omega) (by omega) (hw.2 ▸ hx)
              · exfalso
                have : (free s id).evs j = s.evs j := by
                  simp only [free]
                  by_cases hr0 : (s.ev id).idxr ≠ 0 <;> by_cases hw0 : (s.ev id).idxw ≠ 0
                  · rw [if_pos hw0, if_pos hr0, upd_ne _ _ (fun h => hw ⟨hw0, h⟩), upd_ne _ _ (fun h => hr ⟨hr0, h⟩)]
                  · rw [if_neg hw0, if_pos hr0, upd_ne _ _ (fun h => hr ⟨hr0, h⟩)]
                  · rw [if_pos hw0, if_neg hr0, upd_ne _ _ (fun h => hw ⟨hw0, h⟩)]
                  · rw [if_neg hw0, if_neg hr0]
                rw [hn, hx] at this
                simp at this
          rw [hid]
          simp [free, upd]
    · exact .inl rfl

theorem acts_keep {i n : Nat} (as : List Act) {s : St} (J0 : J s (i + 1) n) {j : Nat} (h1 : i + 1 ≤ j) (h2 : j < n) :
    ((as.foldl act s).evs j = s.evs j) ∨
      ∃ x, s.evs j = some x ∧ (as.foldl act s).evs j = none ∧ s.gen x.id < (as.foldl act s).gen x.id := by
  induction as generalizing s with
  | nil => exact .inl rfl
  | cons a as ih =>
    rw [List.foldl_cons]
    rcases ih (act_J J0 a) with h | ⟨x, ha, hb, hc⟩
    · rcases act_keep J0 a h1 h2 with h' | ⟨x, ha, hb, hc⟩
      · exact .inl (h.trans h')
      · exact .inr ⟨x, ha, h.trans hb, Nat.lt_of_lt_of_le hc (acts_gen as _ _)⟩
    · rcases act_keep J0 a h1 h2 with h' | ⟨y, ha', hb', hc'⟩
      · exact .inr ⟨x, h' ▸ ha, hb, Nat.lt_of_le_of_lt (act_gen s a _) hc⟩
      · rw [hb'] at ha; simp at ha

theorem loop_gen (h : Nat → List Act) (k i : Nat) (s : St) (id : Nat) : s.gen id ≤ (loop h k i s).1.gen id := by
  induction k generalizing i s with
  | zero => exact Nat.le_refl _
  | succ k ih =>
    have hg : (body s i).1.gen = s.gen := by
      unfold body
      split
      · rfl
      · simp only; split
        · rfl
        · split <;> rfl
    cases hbd : body s i with
    | mk s' o =>
      rw [hbd] at hg
      simp only at hg
      cases o with
      | none => simp only [loop, hbd]; rw [← hg]; exact ih _ _
      | some c =>
        simp only [loop, hbd]
        rw [← hg]
        exact Nat.le_trans (acts_gen (h i) s' id) (ih _ _)

/-- The pairs of the pending entries. -/
def pend (s : St) (i k : Nat) : List (Nat × Dir) := (List.range' i k).filterMap fun j => (s.evs j).map fun x => (x.id, x.dir)

theorem loop_J (h : Nat → List Act) (k i : Nat) (s : St) (J0 : J s i (i + k)) :
    (called (loop h k i s).2).Sublist (pend s i k) ∧
    (∀ j x, i ≤ j → j < i + k → s.evs j = some x → (loop h k i s).1.gen x.id = s.gen x.id →
      (x.id, x.dir) ∈ called (loop h k i s).2) ∧
    (∀ id, (loop h k i s).1.alive id = true → ((loop h k i s).1.ev id).fread = false ∧ ((loop h k i s).1.ev id).fwrite = false) := by
  induction k generalizing i s with
  | zero =>
    refine ⟨by simp [loop, called, pend], fun j x h1 h2 => by omega, fun id ha => ?_⟩
    simp only [loop] at ha ⊢
    constructor
    · cases hc : (s.ev id).fread with
      | false => rfl
      | true => obtain ⟨j, g, h1, h2, -⟩ := J0.fr id ha hc; omega
    · cases hc : (s.ev id).fwrite with
      | false => rfl
      | true => obtain ⟨j, g, h1, h2, -⟩ := J0.fw id ha hc; omega
  | succ k ih =>
    obtain ⟨hJ, hn, hs, he, hg⟩ := body_J J0 (by omega)
    have e : i + (k + 1) = (i + 1) + k := by omega
    rw [e] at hJ
    cases hx : s.evs i with
    | none =>
      have hb := hn hx
      have hl : loop h (k + 1) i s = loop h k (i + 1) (body s i).1 := by
        cases hbd : body s i with
        | mk s' o => rw [hbd] at hb; simp only at hb; subst hb; simp only [loop, hbd]
      obtain ⟨i1, i2, i3⟩ := ih _ _ hJ
      rw [hl]
      refine ⟨?_, ?_, i3⟩
      · have : pend s i (k + 1) = pend (body s i).1 (i + 1) k := by simp [pend, he, hx, List.range'_succ]
        rw [this]; exact i1
      · intro j x h1 h2 hjx hgx
        have : j ≠ i := by rintro rfl; rw [hx] at hjx; simp at hjx
        exact i2 j x (by omega) (by omega) (by rw [he]; exact hjx) (by rw [hgx, hg])
    | some x =>
      obtain ⟨c, hc, h1, h2⟩ := hs x hx
      have hl : loop h (k + 1) i s =
          ((loop h k (i + 1) ((h i).foldl act (body s i).1)).1, c :: (loop h k (i + 1) ((h i).foldl act (body s i).1)).2) := by
        cases hbd : body s i with
        | mk s' o => rw [hbd] at hc; simp only at hc; subst hc; simp only [loop, hbd]
      obtain ⟨i1, i2, i3⟩ := ih _ _ (acts_J (h i) hJ)
      rw [hl]
      have hkeep : ∀ j, i + 1 ≤ j → j < i + 1 + k → _ := fun j a b => acts_keep (h i) hJ (j := j) a b
      refine ⟨?_, ?_, i3⟩
      · have hp : pend s i (k + 1) = (x.id, x.dir) :: pend s (i + 1) k := by simp [pend, hx, List.range'_succ]
        rw [hp]
        simp only [called, List.map_cons, h1, h2]
        refine List.Sublist.cons_cons _ (i1.trans ?_)
        -- entries only disappear
        have : ∀ (m a : Nat), i + 1 ≤ a → a + m ≤ i + 1 + k →
            (pend ((h i).foldl act (body s i).1) a m).Sublist (pend s a m) := by
          intro m
          induction m with
          | zero => intro a _ _; simp [pend]
          | succ m ihm =>
            intro a ha hm
            have hrec := ihm (a + 1) (by omega) (by omega)
            have hsp : ∀ t : St, pend t a (m + 1) =
                ((t.evs a).map fun x => (x.id, x.dir)).toList ++ pend t (a + 1) m := by
              intro t; simp only [pend, List.range'_succ, List.filterMap_cons]
              cases t.evs a <;> simp
            rw [hsp, hsp]
            refine List.Sublist.append ?_ hrec
            rcases hkeep a ha (by omega) with hk | ⟨y, -, hk, -⟩
            · rw [hk, he]; exact List.Sublist.refl _
            · rw [hk]; simp
        exact this k (i + 1) (Nat.le_refl _) (Nat.le_refl _)
      · intro j y a b hy hgy
        simp only [called, List.map_cons, List.mem_cons, h1, h2]
        by_cases hj : j = i
        · subst hj; rw [hx] at hy; simp only [Option.some.injEq] at hy; subst hy; exact .inl rfl
        · refine .inr ?_
          have hfin := loop_gen h k (i + 1) ((h i).foldl act (body s i).1) y.id
          have hact := acts_gen (h i) (body s i).1 y.id
          rw [hg] at hact
          simp only at hgy
          rcases hkeep j (by omega) (by omega) with hk | ⟨z, hz, hk, hlt⟩
          · refine i2 j y (by omega) (by omega) (by rw [hk, he]; exact hy) ?_
            omega
          · rw [he] at hz
            rw [hy] at hz
            simp only [Option.some.injEq] at hz
            subst hz
            rw [hg] at hlt
            omega

/-- After collecting, if flags were clear and no unreported live event records an entry of this batch. -/
theorem collect_J (s : St) (rep : List (Nat × Bool × Bool)) (h : (rep.map (·.1)).Nodup) (ha : ∀ e ∈ rep, s.alive e.1 = true)
    (hc : ∀ id, s.alive id = true → (s.ev id).fread = false ∧ (s.ev id).fwrite = false)
    (hi : ∀ id, s.alive id = true → id ∉ rep.map (·.1) →
      ((s.ev id).idxr = 0 ∨ (expand rep).length ≤ (s.ev id).idxr) ∧ ((s.ev id).idxw = 0 ∨ (expand rep).length ≤ (s.ev id).idxw)) :
    J (collect s rep) 0 (collect s rep).evn := by
  have k := collect_K s rep h
  have inv := collect_inv s rep h ha
  have hslot : ∀ {j : Nat} {x : Slot}, j < (collect s rep).evn → (collect s rep).evs j = some x →
      (expand rep)[j]? = some (x.id, x.dir) ∧ x.gen = s.gen x.id := by
    intro j x hj hx
    rw [k.evn] at hj
    have hp : (expand rep)[j]? = some (expand rep)[j] := List.getElem?_eq_getElem hj
    have := k.slots j _ hp
    rw [hx] at this
    simp only [Option.some.injEq] at this
    rw [hp, this]
    exact ⟨rfl, rfl⟩
  have hrep : ∀ {j : Nat} {x : Slot}, j < (collect s rep).evn → (collect s rep).evs j = some x →
      ∃ e ∈ rep, e.1 = x.id ∧ (x.dir = .r → e.2.1 = true) ∧ (x.dir = .w → e.2.2 = true) := by
    intro j x hj hx
    exact mem_expand (List.mem_of_getElem? (hslot hj hx).1)
  refine ⟨inv, ?_, ?_, ?_, ?_, ?_, ?_, ?_⟩
  · intro id hal hf
    rw [k.alive] at hal
    by_cases hin : id ∈ rep.map (·.1)
    · obtain ⟨e, he, rfl⟩ := List.mem_map.mp hin
      have := k.rd e he
      split at this
      · have hlt := (List.getElem?_eq_some_iff.mp this.2).1
        exact ⟨_, _, Nat.zero_le _, by rw [k.evn]; exact hlt, k.slots _ _ this.2⟩
      · rw [this.1, (hc _ hal).1] at hf; simp at hf
    · rw [k.other id hin, (hc _ hal).1] at hf; simp at hf
  · intro id hal hf
    rw [k.alive] at hal
    by_cases hin : id ∈ rep.map (·.1)
    · obtain ⟨e, he, rfl⟩ := List.mem_map.mp hin
      have := k.wr e he
      split at this
      · have hlt := (List.getElem?_eq_some_iff.mp this.2).1
        exact ⟨_, _, Nat.zero_le _, by rw [k.evn]; exact hlt, k.slots _ _ this.2⟩
      · rw [this.1, (hc _ hal).2] at hf; simp at hf
    · rw [k.other id hin, (hc _ hal).2] at hf; simp at hf
  · intro j x _ hj hx hd
    obtain ⟨e, he, h1, h2, -⟩ := hrep hj hx
    have := k.rd e he
    rw [if_pos (h2 hd), h1] at this
    exact this.1
  · intro j x _ hj hx hd
    obtain ⟨e, he, h1, -, h2⟩ := hrep hj hx
    have := k.wr e he
    rw [if_pos (h2 hd), h1] at this
    exact this.1
  · intro j l id g g' _ hj _ hl ha' hb'
    obtain ⟨e, he, h1, h2, -⟩ := hrep hj ha'
    obtain ⟨e', he', h1', -, h2'⟩ := hrep hl hb'
    have hee : e = e' := by
      simp only at h1 h1'
      have hnd : rep.Pairwise fun a b => a.1 ≠ b.1 := List.pairwise_map.mp h
      obtain ⟨u, hu, rfl⟩ := List.getElem_of_mem he
      obtain ⟨v, hv, rfl⟩ := List.getElem_of_mem he'
      have hq : (rep.map (·.1))[u]? = (rep.map (·.1))[v]? := by
        rw [List.getElem?_map, List.getElem?_map, List.getElem?_eq_getElem hu, List.getElem?_eq_getElem hv]
        simp [h1, h1']
      have := (List.getElem?_inj (by simpa using hu) h).mp hq
      subst this
      rfl
    subst hee
    have := k.rw e he (h2 rfl) (h2' rfl)
    have ir := (inv j (Nat.zero_le _) hj _ ha').2.2.1 rfl
    have iw := (inv l (Nat.zero_le _) hl _ hb').2.2.2 rfl
    simp only at ir iw h1
    rw [h1] at this
    omega
  · intro id x hal hne _ hlt hx
    rw [k.alive] at hal
    by_cases hin : id ∈ rep.map (·.1)
    · obtain ⟨e, he, rfl⟩ := List.mem_map.mp hin
      have := k.rd e he
      split at this
      · have hs := (hslot hlt hx).1
        rw [this.2] at hs
        simp only [Option.some.injEq, Prod.mk.injEq] at hs
        exact hs.1.symm
      · exact absurd this.2 hne
    · rw [k.other id hin] at hne hlt
      rw [k.evn] at hlt
      have := (hi id hal hin).1
      omega
  · intro id x hal hne _ hlt hx
    rw [k.alive] at hal
    by_cases hin : id ∈ rep.map (·.1)
    · obtain ⟨e, he, rfl⟩ := List.mem_map.mp hin
      have := k.wr e he
      split at this
      · have hs := (hslot hlt hx).1
        rw [this.2] at hs
        simp only [Option.some.injEq, Prod.mk.injEq] at hs
        exact hs.1.symm
      · exact absurd this.2 hne
    · rw [k.other id hin] at hne hlt
      rw [k.evn] at hlt
      have := (hi id hal hin).2
      omega

theorem collect_pend (s : St) (rep : List (Nat × Bool × Bool)) (h : (rep.map (·.1)).Nodup) :
    pend (collect s rep) 0 (collect s rep).evn = expand rep := by
  have k := collect_K s rep h
  have : ∀ (m a : Nat), a + m = (expand rep).length → pend (collect s rep) a m = (expand rep).drop a := by
    intro m
    induction m with
    | zero => intro a ha; rw [List.drop_of_length_le (by omega)]; simp [pend]
    | succ m ih =>
      intro a ha
      have hlt : a < (expand rep).length := by omega
      have hd := List.drop_eq_getElem_cons hlt
      have := k.slots a _ (List.getElem?_eq_getElem hlt)
      have hr := ih (a + 1) (by omega)
      simp only [pend] at hr ⊢
      rw [hd]
      simp only [List.range'_succ, List.filterMap_cons, this, hr, Option.map_some]
  have := this (expand rep).length 0 (by omega)
  rw [k.evn]
  simpa using this

end Verif.Event
