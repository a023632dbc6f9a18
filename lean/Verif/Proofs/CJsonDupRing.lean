import Verif.Model.CJsonDup
import Verif.Proofs.CJsonNamed
/-
Helper lemmas for C122: the links in a copy.
-/
namespace Verif.CJsonMem

variable {V : Type} {h h' h0 h1 : H V} {ok : Nat → Bool}

theorem Ring.links {a : Nat} {ds : List Nat} (hr : Ring h a ds) (hd : ∀ d ∈ ds, h'.cells d = h.cells d)
    (ha : ∀ it, h.cells a = some (.item it) → ∃ it', h'.cells a = some (.item it') ∧ it'.child = it.child) : Ring h' a ds := by
  obtain ⟨nd, ⟨par, ep, e⟩, run⟩ := hr
  obtain ⟨it', e1, e2⟩ := ha par ep
  exact ⟨nd, ⟨it', e1, e2.trans e⟩, run.congr hd⟩

/-- While the item `q` is copied: its children so far are `cs`; all other new items are complete. -/
structure Grown (h0 h : H V) (q : Nat) (cs : List Nat) : Prop where
  fresh : Fresh h
  new : h0.used ≤ q
  lt : q < h.used
  old : ∀ a, a < h0.used → h.cells a = h0.cells a
  root : ∃ it, h.cells q = some (.item it) ∧ it.next = none ∧ it.child = cs.head?
  run : ∃ pv, Run h pv cs none
  nodup : (q :: cs).Nodup
  mem : ∀ c ∈ cs, h0.used ≤ c
  rings : ∀ a it, h0.used ≤ a → a ≠ q → h.cells a = some (.item it) → ∃ ds, Ring h a ds ∧ ∀ d ∈ ds, h0.used ≤ d ∧ d ≠ q ∧ d ∉ cs

/-- The item `q` was copied with all that is in it. -/
structure Whole (h0 h : H V) (q : Nat) : Prop where
  fresh : Fresh h
  new : h0.used ≤ q
  lt : q < h.used
  old : ∀ a, a < h0.used → h.cells a = h0.cells a
  root : ∃ it, h.cells q = some (.item it) ∧ it.next = none
  rings : ∀ a it, h0.used ≤ a → h.cells a = some (.item it) → ∃ ds, Ring h a ds ∧ ∀ d ∈ ds, h0.used ≤ d ∧ d ≠ q

theorem lt_of_cell (hf : Fresh h) {a : Nat} {c : Cell V} (e : h.cells a = some c) : a < h.used := lt_used hf (by rw [e]; rfl)

theorem upd_some {p : Nat} {f : Item V → Item V} (e : upd h p f = some h') : ∃ it, h.cells p = some (.item it) ∧ h' = h.set p (some (.item (f it))) := by
  unfold upd at e
  split at e
  · next it hc => exact ⟨it, hc, (Option.some.inj e).symm⟩
  · cases e

theorem grown_new (hf : Fresh h) {q : Nat} (e : newItem ok h = (some q, h')) : Grown h h' q [] := by
  unfold newItem alloc at e
  split at e
  · cases e
    refine ⟨fun a ha => ?_, Nat.le_refl _, Nat.lt_succ_self _, fun a ha => ?_, ⟨⟨.invalid, none, none, none, none, none⟩, by simp, rfl, rfl⟩, ⟨none, trivial⟩, by simp, by simp, fun a it ha hq e => ?_⟩
    · have hu : h.used + 1 ≤ a := ha
      show (if a = h.used then _ else _) = none
      rw [if_neg (by omega)]
      exact hf a (by omega)
    · exact if_neg (by omega)
    · simp only [if_neg hq] at e
      rw [hf a ha] at e
      cases e
  · cases e

theorem Grown.upd {q : Nat} {cs : List Nat} (g : Grown h0 h q cs) {f : Item V → Item V} (e : upd h q f = some h') (hf : ∀ it, (f it).next = it.next ∧ (f it).child = it.child) :
    Grown h0 h' q cs := by
  obtain ⟨it, eq, rfl⟩ := upd_some e
  obtain ⟨itq, e1, e2, e3⟩ := g.root
  rw [eq] at e1
  cases e1
  have hcs : ∀ c ∈ cs, c ≠ q := fun c hc e => (List.nodup_cons.mp g.nodup).1 (e ▸ hc)
  refine ⟨fun a ha => ?_, g.new, g.lt, fun a ha => ?_, ⟨f it, by simp [set_cells], (hf it).1.trans e2, (hf it).2.trans e3⟩, ?_, g.nodup, g.mem, fun a ita ha hq e => ?_⟩
  · have : h.used ≤ a := ha
    have := g.lt
    rw [set_cells, if_neg (by omega)]
    exact g.fresh a ha
  · have := g.new
    rw [set_cells, if_neg (by omega)]
    exact g.old a ha
  · obtain ⟨pv, run⟩ := g.run
    exact ⟨pv, run.congr fun c hc => by rw [set_cells, if_neg (hcs c hc)]⟩
  · rw [set_cells, if_neg hq] at e
    obtain ⟨ds, R, hd⟩ := g.rings a ita ha hq e
    exact ⟨ds, R.links (fun d hd' => by rw [set_cells, if_neg (hd d hd').2.1]) (fun it' e' => ⟨it', by rw [set_cells, if_neg hq]; exact e', rfl⟩), hd⟩

theorem Grown.strdup {q : Nat} {cs : List Nat} (g : Grown h0 h q cs) {p s : Option Nat} (e : strdup ok h p = some (true, s, h')) : Grown h0 h' q cs := by
  unfold CJsonMem.strdup at e
  split at e
  · cases e; exact g
  · split at e
    · next bs hc =>
      unfold alloc at e
      split at e
      · next hx =>
        split at hx <;> cases hx
        cases e
      · next b h2 hx =>
        split at hx <;> cases hx
        cases e
        have ne : ∀ {a : Nat} {c : Cell V}, h.cells a = some c → a ≠ h.used := fun e => live_ne g.fresh e
        refine ⟨fun a ha => ?_, g.new, Nat.lt_succ_of_lt g.lt, fun a ha => ?_, ?_, ?_, g.nodup, g.mem, fun a ita ha hq e => ?_⟩
        · have : h.used + 1 ≤ a := ha
          simp only
          rw [if_neg (by omega)]
          exact g.fresh a (by omega)
        · have := g.new
          have := g.lt
          simp only
          rw [if_neg (by omega)]
          exact g.old a ha
        · obtain ⟨itq, e1, e2⟩ := g.root
          exact ⟨itq, by simp [ne e1, e1], e2⟩
        · obtain ⟨pv, run⟩ := g.run
          exact ⟨pv, run.congr fun c hc => by obtain ⟨itc, ec⟩ := run.live c hc; simp [ne ec]⟩
        · have hau : a ≠ h.used := by
            rintro rfl
            simp at e
          simp only [if_neg hau] at e
          obtain ⟨ds, R, hd⟩ := g.rings a ita ha hq e
          exact ⟨ds, R.congr fun b hb => by obtain ⟨itb, eb⟩ := R.live b hb; simp [ne eb], hd⟩
    · cases e

theorem Grown.hook {q c : Nat} {cs : List Nat} {h2 : H V} (g : Grown h0 h q cs) (w : Whole h h1 c) (e : hook h1 q cs.getLast? c = some h2) : Grown h0 h2 q (cs ++ [c]) := by
  obtain ⟨itq, q1, q2, q3⟩ := g.root
  obtain ⟨pv, run⟩ := g.run
  obtain ⟨itc, c1, c2⟩ := w.root
  have hcs : ∀ x ∈ cs, x < h.used := fun x hx => by obtain ⟨it, ex⟩ := run.live x hx; exact lt_of_cell g.fresh ex
  have hqc : q ≠ c := by have := g.lt; have := w.new; omega
  have hcc : c ∉ cs := fun hx => by have := hcs c hx; have := w.new; omega
  have hqs := (List.nodup_cons.mp g.nodup)
  have hu : h.used < h1.used := Nat.lt_of_le_of_lt w.new w.lt
  have q1' : h1.cells q = some (.item itq) := by rw [w.old q g.lt]; exact q1
  have run1 : Run h1 pv cs none := run.congr fun x hx => w.old x (hcs x hx)
  have nd : (q :: (cs ++ [c])).Nodup := by
    have := insert_nodup (l := cs) (r := []) (a := c) (p := q) (by simpa using g.nodup) (by simp [Ne.symm hqc, hcc])
    exact this
  have mem : ∀ x ∈ cs ++ [c], h0.used ≤ x := by
    intro x hx
    rcases List.mem_append.mp hx with hx | hx
    · exact g.mem x hx
    · simp only [List.mem_singleton] at hx
      have := g.new; have := g.lt; have := w.new
      omega
  -- the rings of the others, given what the hook leaves alone
  have rings : (∀ b, b ≠ q → b ∉ cs ++ [c] → h2.cells b = h1.cells b) → (∀ b it, b ≠ q → h1.cells b = some (.item it) → ∃ it', h2.cells b = some (.item it') ∧ it'.child = it.child) →
      (∀ b it, h2.cells b = some (.item it) → ∃ it', h1.cells b = some (.item it')) →
      ∀ a it, h0.used ≤ a → a ≠ q → h2.cells a = some (.item it) → ∃ ds, Ring h2 a ds ∧ ∀ d ∈ ds, h0.used ≤ d ∧ d ≠ q ∧ d ∉ cs ++ [c] := by
    intro k1 k2 k3 a it ha hq e
    obtain ⟨it1, e1⟩ := k3 a it e
    by_cases hau : a < h.used
    · have e0 := e1
      rw [w.old a hau] at e0
      obtain ⟨ds, R, hd⟩ := g.rings a it1 ha hq e0
      have hdl : ∀ d ∈ ds, d < h.used := fun d hd' => by obtain ⟨itd, ed⟩ := R.live d (List.mem_cons_of_mem a hd'); exact lt_of_cell g.fresh ed
      have hdc : ∀ d ∈ ds, d ∉ cs ++ [c] := fun d hd' hx => by
        rcases List.mem_append.mp hx with hx | hx
        · exact (hd d hd').2.2 hx
        · simp only [List.mem_singleton] at hx
          have := hdl d hd'; have := w.new; omega
      have R1 : Ring h1 a ds := R.congr fun b hb => w.old b (by
        rcases List.mem_cons.mp hb with rfl | hb
        · exact hau
        · exact hdl b hb)
      exact ⟨ds, R1.links (fun d hd' => k1 d (hd d hd').2.1 (hdc d hd')) (fun it' e' => k2 a it' hq e'), fun d hd' => ⟨(hd d hd').1, (hd d hd').2.1, hdc d hd'⟩⟩
    · obtain ⟨ds, R, hd⟩ := w.rings a it1 (by omega) e1
      have hx : ∀ d ∈ ds, h0.used ≤ d ∧ d ≠ q ∧ d ∉ cs ++ [c] := by
        intro d hd'
        obtain ⟨x1, x2⟩ := hd d hd'
        have := g.new; have := g.lt
        refine ⟨by omega, by omega, fun hx => ?_⟩
        rcases List.mem_append.mp hx with hx | hx
        · have := hcs d hx; omega
        · simp only [List.mem_singleton] at hx
          exact x2 hx
      exact ⟨ds, R.links (fun d hd' => k1 d (hx d hd').2.1 (hx d hd').2.2) (fun it' e' => k2 a it' hq e'), hx⟩
  rcases List.eq_nil_or_concat cs with rfl | ⟨l, m, rfl⟩
  · unfold CJsonMem.hook at e
    dsimp only [List.getLast?_nil] at e
    rw [upd_eq q1'] at e
    cases e
    refine ⟨fun a ha => ?_, g.new, Nat.lt_trans g.lt hu, fun a ha => ?_, ⟨{ itq with child := some c }, by simp [set_cells], q2, rfl⟩, ⟨itc.prev, ⟨⟨itc, by simp [set_cells, Ne.symm hqc, c1], rfl, c2⟩, trivial⟩⟩, nd, mem,
      rings (fun b hb _ => by rw [set_cells, if_neg hb]) (fun b it hb e => ⟨it, by rw [set_cells, if_neg hb]; exact e, rfl⟩) (fun b it e => ?_)⟩
    · have : h1.used ≤ a := ha
      have := g.lt
      rw [set_cells, if_neg (by omega)]
      exact w.fresh a ha
    · have := g.new; have := g.lt
      rw [set_cells, if_neg (by omega), w.old a (by omega)]
      exact g.old a ha
    · rw [set_cells] at e
      by_cases hb : b = q
      · subst hb; exact ⟨itq, q1'⟩
      · rw [if_neg hb] at e; exact ⟨it, e⟩
  · rw [List.concat_eq_append] at *
    have hm : m < h.used := hcs m (by simp)
    have hmc : m ≠ c := by have := w.new; omega
    have hmq : m ≠ q := fun e => hqs.1 (by simp [e])
    have hml : m ∉ l := fun hx => (List.nodup_append'.mp hqs.2).2.2 hx (by simp)
    unfold CJsonMem.hook at e
    rw [List.getLast?_concat] at e
    dsimp only at e
    rw [run_append] at run1
    obtain ⟨runl, ⟨itm, em, bm, nm⟩, -⟩ := run1
    rw [upd_eq em, Option.bind_some, upd_eq (it := itc) (by simp [set_cells, Ne.symm hmc, c1])] at e
    cases e
    refine ⟨fun a ha => ?_, g.new, Nat.lt_trans g.lt hu, fun a ha => ?_, ⟨itq, by simp [set_cells, hqc, Ne.symm hmq, q1'], q2, ?_⟩, ⟨pv, ?_⟩, nd, mem, rings (fun b hb hx => ?_) (fun b it hb e => ?_) (fun b it e => ?_)⟩
    · have : h1.used ≤ a := ha
      have := w.lt
      rw [set_cells, if_neg (by omega), set_cells, if_neg (by omega)]
      exact w.fresh a ha
    · have := g.new; have := g.lt; have := w.new; have := g.mem m (by simp)
      rw [set_cells, if_neg (by omega), set_cells, if_neg (by omega), w.old a (by omega)]
      exact g.old a ha
    · rw [q3]; cases l <;> rfl
    · rw [run_append, run_append]
      refine ⟨⟨runl.congr fun b hb => ?_, ⟨⟨{ itm with next := some c }, by simp [set_cells, hmc], bm, rfl⟩, trivial⟩⟩, ⟨⟨{ itc with prev := some m }, by simp [set_cells], ?_, c2⟩, trivial⟩⟩
      · have h1 : b ≠ m := fun e => hml (e ▸ hb)
        have h2 : b ≠ c := fun e => hcc (by simp [← e, hb])
        simp [set_cells, h1, h2]
      · rw [lastOr_concat]
    · simp only [List.mem_append, List.mem_singleton, not_or] at hx
      simp [set_cells, hx]
    · rw [set_cells, set_cells]
      by_cases hbc : b = c
      · subst hbc
        rw [c1] at e; cases e
        exact ⟨{ itc with prev := some m }, by simp, rfl⟩
      · by_cases hbm : b = m
        · subst hbm
          rw [em] at e; cases e
          exact ⟨{ itm with next := some c }, by simp [hbc], rfl⟩
        · exact ⟨it, by simp [hbc, hbm, e], rfl⟩
    · rw [set_cells, set_cells] at e
      by_cases hbc : b = c
      · subst hbc; exact ⟨itc, c1⟩
      · by_cases hbm : b = m
        · subst hbm; exact ⟨itm, em⟩
        · simp only [if_neg hbc, if_neg hbm] at e; exact ⟨it, e⟩

theorem Grown.copies {q : Nat} {dup : H V → Nat → Out V} (hdup : ∀ h p c h', Fresh h → dup h p = some (some c, h') → Whole h h' c) :
    ∀ (n : Nat) {h : H V} {cs : List Nat} {p last : Option Nat}, Grown h0 h q cs → copies dup q n h p cs.getLast? = some (true, last, h') → ∃ cs', Grown h0 h' q cs' ∧ last = cs'.getLast? := by
  intro n
  induction n with
  | zero =>
    intro h cs p last g e
    cases p with
    | none => rw [CJsonMem.copies] at e; cases e; exact ⟨cs, g, rfl⟩
    | some p => rw [CJsonMem.copies] at e; cases e
  | succ n ih =>
    intro h cs p last g e
    cases p with
    | none => rw [CJsonMem.copies] at e; cases e; exact ⟨cs, g, rfl⟩
    | some p =>
      rw [CJsonMem.copies] at e
      obtain ⟨⟨r, h1⟩, e1, e⟩ := Option.bind_eq_some_iff.mp e
      cases r with
      | none => cases e
      | some c =>
        dsimp only at e
        obtain ⟨h2, e2, e⟩ := Option.bind_eq_some_iff.mp e
        obtain ⟨it, e3, e⟩ := Option.bind_eq_some_iff.mp e
        have g2 := g.hook (hdup h p c h1 g.fresh e1) e2
        exact ih g2 (by rw [List.getLast?_concat]; exact e)

theorem Grown.close {q : Nat} {cs : List Nat} (g : Grown h0 h q cs) (e : close h q cs.getLast? = some h') : Whole h0 h' q := by
  obtain ⟨itq, q1, q2, q3⟩ := g.root
  obtain ⟨pv, run⟩ := g.run
  have hqs := (List.nodup_cons.mp g.nodup)
  unfold CJsonMem.close at e
  rw [item_eq q1, Option.bind_some] at e
  cases cs with
  | nil =>
    have q3 : itq.child = none := q3
    rw [q3] at e
    cases e
    refine ⟨g.fresh, g.new, g.lt, g.old, ⟨itq, q1, q2⟩, fun a it ha e => ?_⟩
    by_cases hq : a = q
    · subst hq
      exact ⟨[], ⟨by simp, ⟨itq, q1, q3⟩, trivial⟩, by simp⟩
    · obtain ⟨ds, R, hd⟩ := g.rings a it ha hq e
      exact ⟨ds, R, fun d hd' => ⟨(hd d hd').1, (hd d hd').2.1⟩⟩
  | cons f l =>
    have q3 : itq.child = some f := q3
    rw [q3] at e
    dsimp only at e
    obtain ⟨⟨itf, ef, bf, nf⟩, runl⟩ := run
    rw [upd_eq ef] at e
    cases e
    have hfl : f < h.used := lt_of_cell g.fresh ef
    have hfq : f ≠ q := fun e => hqs.1 (by simp [e])
    have hfl' := (List.nodup_cons.mp hqs.2).1
    refine ⟨fun a ha => ?_, g.new, g.lt, fun a ha => ?_, ⟨itq, by simp [set_cells, Ne.symm hfq, q1], q2⟩, fun a it ha e => ?_⟩
    · have : h.used ≤ a := ha
      rw [set_cells, if_neg (by omega)]
      exact g.fresh a ha
    · have := g.mem f (by simp)
      rw [set_cells, if_neg (by omega)]
      exact g.old a ha
    · by_cases hq : a = q
      · subst hq
        refine ⟨f :: l, ⟨g.nodup, ⟨itq, by simp [set_cells, Ne.symm hfq, q1], q3⟩, ⟨⟨{ itf with prev := (f :: l).getLast? }, by simp [set_cells], rfl, nf⟩, runl.congr fun b hb => ?_⟩⟩,
          fun d hd => ⟨g.mem d hd, fun e => hqs.1 (e ▸ hd)⟩⟩
        rw [set_cells, if_neg (by rintro rfl; exact hfl' hb)]
      · obtain ⟨it1, e1⟩ : ∃ it1, h.cells a = some (.item it1) := by
          rw [set_cells] at e
          by_cases haf : a = f
          · subst haf; exact ⟨itf, ef⟩
          · rw [if_neg haf] at e; exact ⟨it, e⟩
        obtain ⟨ds, R, hd⟩ := g.rings a it1 ha hq e1
        refine ⟨ds, R.links (fun d hd' => ?_) (fun it' e' => ?_), fun d hd' => ⟨(hd d hd').1, (hd d hd').2.1⟩⟩
        · rw [set_cells, if_neg]
          rintro rfl
          exact (hd d hd').2.2 (by simp)
        · rw [set_cells]
          by_cases haf : a = f
          · subst haf; rw [ef] at e'; cases e'; exact ⟨_, if_pos rfl, rfl⟩
          · exact ⟨it', by rw [if_neg haf]; exact e', rfl⟩

theorem Grown.whole {q : Nat} (g : Grown h0 h q []) : Whole h0 h q := by
  obtain ⟨itq, q1, q2, q3⟩ := g.root
  refine g.close (by
    unfold CJsonMem.close
    rw [item_eq q1, Option.bind_some, q3]
    rfl)

theorem duplicate_whole : ∀ (n : Nat) (r : Bool) (h : H V) (p q : Nat) (h' : H V), Fresh h → duplicate ok r n h p = some (some q, h') → Whole h h' q := by
  intro n
  induction n with
  | zero => intro r h p q h' _ e; cases e
  | succ n ih =>
    intro r h p q h' hf e
    rw [duplicate] at e
    split at e
    · cases e
    · next q' h1 hn =>
      have g := grown_new hf hn
      have nodrop : ∀ {h2 : H V}, (drop h2 (some q') : Out V) = some (some q, h') → False := by
        intro h2 e
        simp [drop] at e
      obtain ⟨src, -, e⟩ := Option.bind_eq_some_iff.mp e
      obtain ⟨h2, e2, e⟩ := Option.bind_eq_some_iff.mp e
      have g := Grown.upd g e2 fun it => ⟨rfl, rfl⟩
      obtain ⟨⟨okv, v, h3⟩, e3, e⟩ := Option.bind_eq_some_iff.mp e
      dsimp only at e
      split at e
      · next hv =>
        subst hv
        have g := g.strdup e3
        obtain ⟨h4, e4, e⟩ := Option.bind_eq_some_iff.mp e
        have g := Grown.upd g e4 fun it => ⟨rfl, rfl⟩
        obtain ⟨⟨oks, s, h5⟩, e5, e⟩ := Option.bind_eq_some_iff.mp e
        dsimp only at e
        split at e
        · next hs =>
          subst hs
          have g := g.strdup e5
          obtain ⟨h6, e6, e⟩ := Option.bind_eq_some_iff.mp e
          have g := Grown.upd g e6 fun it => ⟨rfl, rfl⟩
          split at e
          · obtain ⟨⟨okc, last, h7⟩, e7, e⟩ := Option.bind_eq_some_iff.mp e
            dsimp only at e
            split at e
            · next hc =>
              subst hc
              obtain ⟨cs, g, rfl⟩ := Grown.copies (fun h p c h' hf e => ih true h p c h' hf e) n (cs := []) g e7
              obtain ⟨h8, e8, e⟩ := Option.map_eq_some_iff.mp e
              cases e
              exact g.close e8
            · exact (nodrop e).elim
          · cases e
            exact g.whole
        · exact (nodrop e).elim
      · exact (nodrop e).elim

end Verif.CJsonMem
