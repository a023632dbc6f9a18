import Verif.Proofs.Worker
import Verif.Spec.Worker
import Mathlib.Data.List.Forall2
/-
The invariant of a worker: every block in use has one owner, so no handler touches the data of another session.
-/
namespace Verif.Worker
open Verif Verif.Net Verif.Tunnel

/-- Address of a block. -/
def at_ (base : Nat → Nat) (b : Nat × Nat) : Nat := base b.1 + b.2 * Mem.stride b.1 + 24

theorem addr_at {p : Mem.St} {base : Nat → Nat} (h : p.base = base) (i j : Nat) : p.addr i j = at_ base (i, j) := by
  simp [Mem.St.addr, at_, h, Mem.hdr]

/-- A buffer inside its block. -/
def Geo (base : Nat → Nat) (d : MDir) : Prop := d.blk.1 = 5 ∧ d.start = at_ base d.blk + 40

/-- The blocks of a session. -/
def blks (s : MSess) : List (Nat × Nat) := if s.closed.isSome then [] else [s.up.blk, s.down.blk]

/-- `lv`: the blocks in use; `ex`: blocks that belong to what is being done. -/
structure WI (base : Nat → Nat) (w : Wk) (l : List Sess) (lv ex : List (Nat × Nat)) : Prop where
  mi : Mem.Inv w.pool lv
  hbase : w.pool.base = base
  nd : (ex ++ (w.held ++ w.sess.flatMap blks)).Nodup
  all : ∀ b, b ∈ ex ++ (w.held ++ w.sess.flatMap blks) ↔ b ∈ lv
  geo : ∀ s ∈ w.sess, s.closed = none → Geo base s.up ∧ Geo base s.down
  ag : List.Forall₂ (SA w.pool.mem) w.sess l

theorem WI.own {base : Nat → Nat} {w : Wk} {l : List Sess} {lv ex : List (Nat × Nat)} (H : WI base w l lv ex) (b : Nat × Nat)
    (hb : b ∈ ex ++ (w.held ++ w.sess.flatMap blks)) : b ∈ lv := (H.all b).mp hb

/-- Two blocks in use are apart. -/
theorem sep {base : Nat → Nat} (L : Mem.Layout base) {p : Mem.St} {lv : List (Nat × Nat)} (I : Mem.Inv p lv) {b c : Nat × Nat}
    (hb : b ∈ lv) (hc : c ∈ lv) (hne : b ≠ c) (x : Nat) (h1 : at_ base b ≤ x) (h2 : x < at_ base b + Mem.space b.1) (h3 : at_ base c ≤ x)
    (h4 : x < at_ base c + Mem.space c.1) : False := by
  obtain ⟨hi, hj⟩ := (I.live b.1 b.2).mp hb
  obtain ⟨hk, hl⟩ := (I.live c.1 c.2).mp hc
  simp only [at_] at h1 h2 h3 h4
  refine Mem.extents_apart L hi hk (Mem.inv_lt I hi (Or.inr hj)) (Mem.inv_lt I hk (Or.inr hl)) hne x ?_ ?_
  · simp only [Mem.stride, Mem.hdr] at *; omega
  · simp only [Mem.stride, Mem.hdr] at *; omega

theorem alloc_lv {p p' : Mem.St} {lv : List (Nat × Nat)} (I : Mem.Inv p lv) {n : Int} {i j : Nat}
    (h : Mem.alloc p n = .next (.ptr i j) p') : Mem.Inv p' (lv ++ [(i, j)]) ∧ (i, j) ∉ lv ∧ p'.base = p.base ∧ Mem.pick n = some i ∧
      ∀ x, ¬ (p.addr i j ≤ x ∧ x < p.addr i j + Mem.space i) → p'.mem x = p.mem x := by
  have h1 := Mem.step_inv (op := .alloc n) I trivial h
  obtain ⟨-, -, -, hp, rest, hu, rfl⟩ := Mem.alloc_ptr h
  obtain ⟨hi, -⟩ := Mem.pick_lt hp
  have hnd := Mem.inv_nodup I hi
  rw [List.nodup_append'] at hnd
  refine ⟨h1, fun hc => hnd.2.2 (by rw [hu]; simp) ((I.live i j).mp hc).2, rfl, hp, ?_⟩
  intro x hx
  simp only [Mem.zero, hx, if_false]

theorem free_lv {p p' : Mem.St} {lv : List (Nat × Nat)} (I : Mem.Inv p lv) {i j : Nat} {r : Mem.Ret} (hb : (i, j) ∈ lv)
    (h : Mem.free p i j = .next r p') : Mem.Inv p' (lv.filter (· ≠ (i, j))) ∧ p'.base = p.base ∧ p'.mem = p.mem := by
  obtain ⟨hi, hj⟩ := (I.live i j).mp hb
  have h1 := Mem.step_inv (op := .free i j) I ⟨hi, Mem.inv_lt I hi (Or.inr hj)⟩ h
  refine ⟨h1, ?_⟩
  simp only [Mem.free] at h
  split at h
  · simp at h
  · simp only [Mem.Outcome.next.injEq] at h
    obtain ⟨-, rfl⟩ := h
    exact ⟨rfl, rfl⟩

theorem SA.frame {mem mem' : Memory} {s : MSess} {t : Sess} (h : SA mem s t)
    (hm : s.closed = none → (∀ x, s.up.start ≤ x → x < s.up.start + cap → mem' x = mem x) ∧
      (∀ x, s.down.start ≤ x → x < s.down.start + cap → mem' x = mem x)) : SA mem' s t :=
  ⟨h.closed, h.upOut, h.downOut, fun hc => ⟨(h.dirs hc).1.frame (hm hc).1, (h.dirs hc).2.frame (hm hc).2⟩⟩

theorem mem_blks {s : MSess} (h : s.closed = none) : s.up.blk ∈ blks s ∧ s.down.blk ∈ blks s := by simp [blks, h]

/-- Changes inside blocks that are no session's concern no session. -/
theorem ag_frame {base : Nat → Nat} (L : Mem.Layout base) {p : Mem.St} {lv : List (Nat × Nat)} (I : Mem.Inv p lv) {mem mem' : Memory}
    {ss : List MSess} {ts : List Sess} (ag : List.Forall₂ (SA mem) ss ts) (geo : ∀ s ∈ ss, s.closed = none → Geo base s.up ∧ Geo base s.down)
    (ex : List (Nat × Nat)) (hex : ∀ b ∈ ex, b ∈ lv) (own : ∀ b ∈ ss.flatMap blks, b ∈ lv ∧ b ∉ ex)
    (hm : ∀ x, (∀ b ∈ ex, ¬ (at_ base b ≤ x ∧ x < at_ base b + Mem.space b.1)) → mem' x = mem x) : List.Forall₂ (SA mem') ss ts := by
  have one : ∀ d : MDir, Geo base d → d.blk ∈ lv → d.blk ∉ ex → ∀ x, d.start ≤ x → x < d.start + cap → mem' x = mem x := by
    intro d g h1 h2 x hx1 hx2
    apply hm
    intro b hb hx
    have g2 := g.2
    have hs : Mem.space d.blk.1 = 16384 := by rw [g.1]; rfl
    simp only [cap] at hx2
    exact sep L I (hex b hb) h1 (fun e => h2 (e ▸ hb)) x hx.1 hx.2 (by omega) (by omega)
  induction ag with
  | nil => exact .nil
  | @cons s t ss ts h _ ih =>
    simp only [List.mem_cons, forall_eq_or_imp] at geo
    simp only [List.flatMap_cons, List.mem_append] at own
    refine .cons (h.frame fun hc => ?_) (ih geo.2 fun b hb => own b (Or.inr hb))
    obtain ⟨g1, g2⟩ := geo.1 hc
    obtain ⟨m1, m2⟩ := mem_blks hc
    exact ⟨one _ g1 (own _ (Or.inl m1)).1 (own _ (Or.inl m1)).2, one _ g2 (own _ (Or.inl m2)).1 (own _ (Or.inl m2)).2⟩

/-- A block is taken. -/
theorem WI.alloc {base : Nat → Nat} (L : Mem.Layout base) {w : Wk} {l : List Sess} {lv ex : List (Nat × Nat)} (H : WI base w l lv ex)
    {n : Int} {i j : Nat} {p' : Mem.St} (h : Mem.alloc w.pool n = .next (.ptr i j) p') :
    WI base { w with pool := p' } l (lv ++ [(i, j)]) ((i, j) :: ex) ∧ Mem.pick n = some i := by
  obtain ⟨h1, h2, h3, h4, h5⟩ := alloc_lv H.mi h
  refine ⟨⟨h1, h3.trans H.hbase, ?_, ?_, H.geo, ?_⟩, h4⟩
  · rw [List.cons_append, List.nodup_cons]
    exact ⟨fun hc => h2 (H.own _ hc), H.nd⟩
  · intro b
    rw [List.cons_append, List.mem_cons, H.all b, List.mem_append, List.mem_singleton, or_comm]
  · refine ag_frame L h1 H.ag H.geo [(i, j)] (by simp) ?_ ?_
    · intro b hb
      have hb' : b ∈ lv := H.own b (by simp only [List.mem_append]; exact Or.inr (Or.inr hb))
      refine ⟨by simp [hb'], ?_⟩
      simp only [List.mem_singleton]
      rintro rfl
      exact h2 hb'
    · intro x hx
      apply h5
      rw [addr_at H.hbase]
      exact hx (i, j) (by simp)

/-- A block is given back. -/
theorem WI.free {base : Nat → Nat} {w : Wk} {l : List Sess} {lv ex : List (Nat × Nat)} {b : Nat × Nat}
    (H : WI base w l lv (b :: ex)) {r : Mem.Ret} {p' : Mem.St} (h : Mem.free w.pool b.1 b.2 = .next r p') :
    WI base { w with pool := p' } l (lv.filter (· ≠ b)) ex := by
  obtain ⟨h1, h2, h3⟩ := free_lv H.mi (H.own (b.1, b.2) (by simp)) h
  have nd := H.nd
  rw [List.cons_append, List.nodup_cons] at nd
  refine ⟨h1, h2.trans H.hbase, nd.2, ?_, H.geo, by rw [h3]; exact H.ag⟩
  intro c
  have hc := H.all c
  rw [List.cons_append, List.mem_cons] at hc
  rw [List.mem_filter, ← hc]
  simp only [ne_eq, decide_not, Bool.not_eq_eq_eq_not, Bool.not_true, decide_eq_false_iff_not]
  constructor
  · intro hm
    refine ⟨Or.inr hm, ?_⟩
    rintro rfl
    exact nd.1 hm
  · rintro ⟨h | h, hne⟩
    · exact absurd h hne
    · exact h

/-- Stores into blocks that belong to what is being done. -/
theorem WI.store {base : Nat → Nat} (L : Mem.Layout base) {w : Wk} {l : List Sess} {lv ex : List (Nat × Nat)} (H : WI base w l lv ex)
    (mem' : Memory) (hm : ∀ x, (∀ b ∈ ex, ¬ (at_ base b ≤ x ∧ x < at_ base b + Mem.space b.1)) → mem' x = w.pool.mem x) :
    WI base { w with pool := { w.pool with mem := mem' } } l lv ex := by
  refine ⟨⟨H.mi.perm, H.mi.live⟩, H.hbase, H.nd, H.all, H.geo, ?_⟩
  have nd := H.nd
  rw [List.nodup_append'] at nd
  refine ag_frame L H.mi H.ag H.geo ex (fun b hb => H.own b (by simp [hb])) ?_ hm
  intro b hb
  have hb' : b ∈ w.held ++ w.sess.flatMap blks := by rw [List.mem_append]; exact Or.inr hb
  exact ⟨H.own b (by rw [List.mem_append]; exact Or.inr hb'), fun hc => nd.2.2 hc hb'⟩

theorem forall2_set {α β : Type} {R : α → β → Prop} {a : List α} {b : List β} (h : List.Forall₂ R a b) {s : α} {t : β} (hst : R s t) :
    ∀ k, List.Forall₂ R (a.set k s) (b.set k t) := by
  induction h with
  | nil => intro k; exact .nil
  | cons hh _ ih =>
    intro k
    cases k with
    | zero => exact .cons hst (by assumption)
    | succ k => exact .cons hh (ih k)

theorem set_split {α : Type} {l : List α} {k : Nat} {s : α} (h : l[k]? = some s) :
    ∃ A C, l = A ++ s :: C ∧ ∀ s', l.set k s' = A ++ s' :: C := by
  induction l generalizing k with
  | nil => simp at h
  | cons x l ih =>
    cases k with
    | zero =>
      simp only [List.getElem?_cons_zero, Option.some.injEq] at h
      subst h
      exact ⟨[], l, rfl, fun _ => rfl⟩
    | succ k =>
      simp only [List.getElem?_cons_succ] at h
      obtain ⟨A, C, e1, e2⟩ := ih h
      exact ⟨x :: A, C, by rw [e1]; rfl, fun s' => by rw [List.set_cons_succ, e2]; rfl⟩

/-- A session's blocks are taken out of its hands. -/
theorem WI.takeOut {base : Nat → Nat} {w : Wk} {l : List Sess} {lv : List (Nat × Nat)} (H : WI base w l lv [])
    {k : Nat} {s s0 : MSess} {t0 : Sess} (hk : w.sess[k]? = some s) (hs : s.closed = none) (h0 : s0.closed.isSome = true)
    (hst : SA w.pool.mem s0 t0) :
    WI base { w with sess := w.sess.set k s0 } (l.set k t0) lv [s.up.blk, s.down.blk] := by
  obtain ⟨A, C, e1, e2⟩ := set_split hk
  have b0 : blks s0 = [] := by simp [blks, h0]
  have b1 : blks s = [s.up.blk, s.down.blk] := by simp [blks, hs]
  have pm : ([s.up.blk, s.down.blk] ++ (w.held ++ (w.sess.set k s0).flatMap blks)).Perm ([] ++ (w.held ++ w.sess.flatMap blks)) := by
    rw [e2, e1, List.perm_iff_count]
    intro x
    simp only [List.flatMap_append, List.flatMap_cons, b0, b1, List.count_append, List.count_nil]
    omega
  refine ⟨H.mi, H.hbase, pm.nodup_iff.mpr H.nd, fun b => pm.mem_iff.trans (H.all b), ?_, forall2_set H.ag hst k⟩
  intro s' hs' hc
  rcases List.mem_or_eq_of_mem_set hs' with h | rfl
  · exact H.geo s' h hc
  · rw [hc] at h0; simp at h0

/-- A session gets its blocks. -/
theorem WI.putIn {base : Nat → Nat} {w : Wk} {l : List Sess} {lv : List (Nat × Nat)} {k : Nat} {s s0 : MSess} {t : Sess}
    (H : WI base w l lv [s.up.blk, s.down.blk]) (hk : w.sess[k]? = some s0) (h0 : s0.closed.isSome = true) (hs : s.closed = none)
    (hg : Geo base s.up ∧ Geo base s.down) (hst : SA w.pool.mem s t) : WI base { w with sess := w.sess.set k s } (l.set k t) lv [] := by
  obtain ⟨A, C, e1, e2⟩ := set_split hk
  have b0 : blks s0 = [] := by simp [blks, h0]
  have b1 : blks s = [s.up.blk, s.down.blk] := by simp [blks, hs]
  have pm : ([] ++ (w.held ++ (w.sess.set k s).flatMap blks)).Perm ([s.up.blk, s.down.blk] ++ (w.held ++ w.sess.flatMap blks)) := by
    rw [e2, e1, List.perm_iff_count]
    intro x
    simp only [List.flatMap_append, List.flatMap_cons, b0, b1, List.count_append, List.count_nil]
    omega
  refine ⟨H.mi, H.hbase, pm.nodup_iff.mpr H.nd, fun b => pm.mem_iff.trans (H.all b), ?_, forall2_set H.ag hst k⟩
  intro s' hs' hc
  rcases List.mem_or_eq_of_mem_set hs' with h | rfl
  · exact H.geo s' h hc
  · exact hg

/-- A session that has ended is entered. -/
theorem WI.putClosed {base : Nat → Nat} {w : Wk} {l : List Sess} {lv ex : List (Nat × Nat)} {k : Nat} {s s0 : MSess} {t : Sess}
    (H : WI base w l lv ex) (hk : w.sess[k]? = some s0) (h0 : s0.closed.isSome = true) (hs : s.closed.isSome = true)
    (hst : SA w.pool.mem s t) : WI base { w with sess := w.sess.set k s } (l.set k t) lv ex := by
  obtain ⟨A, C, e1, e2⟩ := set_split hk
  have b0 : blks s0 = [] := by simp [blks, h0]
  have b1 : blks s = [] := by simp [blks, hs]
  have e : (w.sess.set k s).flatMap blks = w.sess.flatMap blks := by
    rw [e2, e1]
    simp only [List.flatMap_append, List.flatMap_cons, b0, b1]
  refine ⟨H.mi, H.hbase, by rw [e]; exact H.nd, fun b => by rw [e]; exact H.all b, ?_, forall2_set H.ag hst k⟩
  intro s' hs' hc
  rcases List.mem_or_eq_of_mem_set hs' with h | rfl
  · exact H.geo s' h hc
  · rw [hc] at hs; simp at hs

/-- A session that has ended is added. -/
theorem WI.push {base : Nat → Nat} {w : Wk} {l : List Sess} {lv ex : List (Nat × Nat)} (H : WI base w l lv ex) {s : MSess} {t : Sess}
    (hs : s.closed.isSome = true) (hst : SA w.pool.mem s t) : WI base { w with sess := w.sess ++ [s] } (l ++ [t]) lv ex := by
  have b1 : blks s = [] := by simp [blks, hs]
  have e : (w.sess ++ [s]).flatMap blks = w.sess.flatMap blks := by simp [b1]
  refine ⟨H.mi, H.hbase, by rw [e]; exact H.nd, fun b => by rw [e]; exact H.all b, ?_, ?_⟩
  · intro s' hs' hc
    rcases List.mem_append.mp hs' with h | h
    · exact H.geo s' h hc
    · simp only [List.mem_singleton] at h
      subst h
      rw [hc] at hs; simp at hs
  · exact List.rel_append H.ag (.cons hst .nil)

theorem WI.exEq {base : Nat → Nat} {w : Wk} {l : List Sess} {lv ex ex' : List (Nat × Nat)} (H : WI base w l lv ex) (h : ex = ex') :
    WI base w l lv ex' := h ▸ H

theorem WI.swapEx {base : Nat → Nat} {w : Wk} {l : List Sess} {lv : List (Nat × Nat)} {a b : Nat × Nat} (H : WI base w l lv [a, b]) :
    WI base w l lv [b, a] := by
  have pm : ([b, a] ++ (w.held ++ w.sess.flatMap blks)).Perm ([a, b] ++ (w.held ++ w.sess.flatMap blks)) := List.Perm.swap _ _ _
  exact ⟨H.mi, H.hbase, pm.nodup_iff.mpr H.nd, fun c => pm.mem_iff.trans (H.all c), H.geo, H.ag⟩

/-- A placeholder for a session at work. -/
def gone (s : MSess) : MSess := { s with closed := some .timeout }

theorem gone_SA {mem : Memory} {s : MSess} {t : Sess} (h : SA mem s t) : SA mem (gone s) { t with closed := some .timeout } :=
  ⟨rfl, h.upOut, h.downOut, fun hc => by simp [gone] at hc⟩

theorem settle_inv {base : Nat → Nat} {w : Wk} {l : List Sess} {lv : List (Nat × Nat)} {k : Nat} {s s0 : MSess} {t : Sess} {p : Mem.St}
    (H : WI base w l lv [s.up.blk, s.down.blk]) (hk : w.sess[k]? = some s0) (h0 : s0.closed.isSome = true)
    (hg : Geo base s.up ∧ Geo base s.down) (hst : SA w.pool.mem s t) (hp : settle w.pool s = some p) :
    ∃ lv', WI base { w with pool := p, sess := w.sess.set k s } (l.set k t) lv' [] := by
  unfold settle at hp
  split at hp
  · next hc =>
    unfold give at hp
    split at hp
    · next r1 p1 e1 =>
      split at hp
      · next r2 p2 e2 =>
        simp only [Option.some.injEq] at hp
        subst hp
        exact ⟨_, ((H.putClosed hk h0 hc hst).free e1).free e2⟩
      · simp at hp
    · simp at hp
  · next hc =>
    simp only [Option.some.injEq] at hp
    subst hp
    exact ⟨lv, H.putIn hk h0 (by simpa using hc) hg hst⟩

theorem geo_apart {base : Nat → Nat} (L : Mem.Layout base) {p : Mem.St} {lv : List (Nat × Nat)} (I : Mem.Inv p lv) {d e : MDir}
    (hd : Geo base d) (he : Geo base e) (h1 : d.blk ∈ lv) (h2 : e.blk ∈ lv) (hne : d.blk ≠ e.blk) : Apart d.start e.start := by
  intro x ⟨a, b, c, f⟩
  have s1 : Mem.space d.blk.1 = 16384 := by rw [hd.1]; rfl
  have s2 : Mem.space e.blk.1 = 16384 := by rw [he.1]; rfl
  have := hd.2
  have := he.2
  simp only [cap] at b f
  exact sep L I h1 h2 hne x (by omega) (by omega) (by omega) (by omega)

theorem event_inv {base : Nat → Nat} (L : Mem.Layout base) {w w' : Wk} {l : List Sess} {lv : List (Nat × Nat)} (H : WI base w l lv [])
    {k : Nat} {e : Event} {o : Out} (h : event w k e = some (o, w')) : ∃ lv', WI base w' (Spec.step l (.event k e, o)) lv' [] := by
  unfold event at h
  have hlen := H.ag.length_eq
  simp only [Spec.step]
  split at h
  · next hk =>
    simp only [Option.some.injEq, Prod.mk.injEq] at h
    obtain ⟨-, rfl⟩ := h
    have : l[k]? = none := by rw [List.getElem?_eq_none_iff] at hk ⊢; omega
    rw [this]
    exact ⟨lv, H⟩
  · next s hk =>
    obtain ⟨t, ht⟩ : ∃ t, l[k]? = some t := by
      obtain ⟨hlt, -⟩ := List.getElem?_eq_some_iff.mp hk
      exact ⟨l[k], List.getElem?_eq_getElem (by omega)⟩
    have hsa : SA w.pool.mem s t := by
      have := (List.forall₂_iff_get.mp H.ag).2 k
      obtain ⟨h1, h2⟩ := List.getElem?_eq_some_iff.mp hk
      obtain ⟨h3, h4⟩ := List.getElem?_eq_some_iff.mp ht
      have := this h1 h3
      simpa only [List.get_eq_getElem, h2, h4] using this
    rw [ht]
    dsimp only
    split at h
    · next hc =>
      simp only [Option.some.injEq, Prod.mk.injEq] at h
      obtain ⟨-, rfl⟩ := h
      have hte : Tunnel.step t e = t := by
        unfold Tunnel.step
        rw [← hsa.closed]
        obtain ⟨y, hy⟩ := Option.isSome_iff_exists.mp hc
        rw [hy]
      rw [hte]
      have : l.set k t = l := by
        obtain ⟨h3, h4⟩ := List.getElem?_eq_some_iff.mp ht
        rw [← h4]; exact List.set_getElem_self h3
      rw [this]
      exact ⟨lv, H⟩
    · next hc =>
      have hc' : s.closed = none := by simpa using hc
      have hmem : s ∈ w.sess := List.mem_of_getElem? hk
      have hg := H.geo s hmem hc'
      have K := H.takeOut hk hc' (s0 := gone s) rfl (gone_SA hsa)
      have nd := K.nd
      simp only [List.cons_append, List.nodup_cons, List.mem_cons, not_or] at nd
      have ha := geo_apart L H.mi hg.1 hg.2 (K.own _ (by simp)) (K.own _ (by simp)) nd.1.1
      obtain ⟨S, Kp⟩ := stepSess_abs hsa hc' ha e
      dsimp only at h
      rw [Option.map_eq_some_iff] at h
      obtain ⟨p, hp, hw⟩ := h
      simp only [Prod.mk.injEq] at hw
      obtain ⟨-, rfl⟩ := hw
      have K2 := K.store L (stepSess w.pool.mem s e).1 (by
        intro x hx
        have hu := hx s.up.blk (by simp)
        have hd := hx s.down.blk (by simp)
        have s1 : Mem.space s.up.blk.1 = 16384 := by rw [hg.1.1]; rfl
        have s2 : Mem.space s.down.blk.1 = 16384 := by rw [hg.2.1]; rfl
        have g1 := hg.1.2
        have g2 := hg.2.2
        apply Kp.mem
        · simp only [cap]; omega
        · simp only [cap]; omega)
      have hblk : [s.up.blk, s.down.blk] = [(stepSess w.pool.mem s e).2.up.blk, (stepSess w.pool.mem s e).2.down.blk] := by
        rw [Kp.up.1, Kp.down.1]
      rw [hblk] at K2
      have hgeo : Geo base (stepSess w.pool.mem s e).2.up ∧ Geo base (stepSess w.pool.mem s e).2.down := by
        refine ⟨?_, ?_⟩
        · unfold Geo; rw [Kp.up.1, Kp.up.2]; exact hg.1
        · unfold Geo; rw [Kp.down.1, Kp.down.2]; exact hg.2
      obtain ⟨lv', R⟩ := settle_inv (k := k) K2 (s0 := gone s)
        (by
          obtain ⟨h1, -⟩ := List.getElem?_eq_some_iff.mp hk
          simp [h1]) rfl hgeo S hp
      refine ⟨lv', ?_⟩
      simpa only [List.set_set] using R

theorem bufAlloc_class {p p' : Mem.St} {i j : Nat} (h : bufAlloc p = .next (.ptr i j) p') : i = 5 := by
  obtain ⟨-, -, -, hp, -⟩ := Mem.alloc_ptr h
  have : Mem.pick ((Meta.hdr : Int) + (cap : Int)) = some 5 := by decide
  rw [this] at hp
  simpa using hp.symm

theorem start_inv {base : Nat → Nat} (L : Mem.Layout base) {w w' : Wk} {l : List Sess} {lv : List (Nat × Nat)} (H : WI base w l lv [])
    {early : List UInt8} {srcUp : List Rx} {dstUp : List Tx} {srcDown : List Rx} {dstDown : List Tx} {o : Out} (he : early.length ≤ 12288)
    (h : start w early srcUp dstUp srcDown dstDown = some (o, w')) :
    ∃ lv', WI base w' (Spec.step l (.start early srcUp dstUp srcDown dstDown, o)) lv' [] := by
  unfold start at h
  split at h
  · next i j p1 e1 =>
    obtain rfl := bufAlloc_class e1
    obtain ⟨K1, -⟩ := H.alloc L e1
    split at h
    · next i' j' p2 e2 =>
      obtain rfl := bufAlloc_class e2
      obtain ⟨K2, -⟩ := K1.alloc L e2
      dsimp only at h
      rw [Option.map_eq_some_iff] at h
      obtain ⟨p, hp, hw⟩ := h
      simp only [Prod.mk.injEq] at hw
      obtain ⟨rfl, rfl⟩ := hw
      have nd := K2.nd
      simp only [List.cons_append, List.nil_append, List.nodup_cons, List.mem_cons, not_or] at nd
      have hb2 : p2.base = base := K2.hbase
      let up := MDir.start' p2 (5, j) early.length srcUp dstUp
      let down := MDir.start' p2 (5, j') 0 srcDown dstDown
      have hgu : Geo base up := ⟨rfl, by show p2.addr 5 j + Meta.hdr = _; rw [addr_at hb2]; rfl⟩
      have hgd : Geo base down := ⟨rfl, by show p2.addr 5 j' + Meta.hdr = _; rw [addr_at hb2]; rfl⟩
      have ha : Apart up.start down.start :=
        geo_apart L K2.mi hgu hgd (K2.own (5, j) (by simp)) (K2.own (5, j') (by simp)) (fun e => nd.1.1 e.symm)
      let mem0 := wr p2.mem up.start early
      have cu : Cur up := ⟨Nat.zero_le _, he⟩
      have cd : Cur down := ⟨Nat.le_refl _, Nat.zero_le _⟩
      have au : abs mem0 up = Dir.start early srcUp dstUp := by
        have hb : rd mem0 up.start early.length = early := rd_wr _ _ _
        simp only [abs, Dir.start, up, MDir.start'] at hb ⊢
        simp only [Nat.add_zero, Nat.sub_zero, hb]
      have ad : abs mem0 down = Dir.start [] srcDown dstDown := by
        simp [abs, Dir.start, down, MDir.start', rd_zero]
      obtain ⟨g1, g2, g3, g4⟩ := trafficRecv_abs mem0 up cu
      obtain ⟨S, Kp⟩ := put_abs (s := ⟨up, down, none⟩) (t := ⟨Dir.start early srcUp dstUp, Dir.start [] srcDown dstDown, none⟩) rfl rfl
        ⟨au, cu⟩ ⟨ad, cd⟩ ha .up (trafficRecv mem0 up).2 g2 g3 g4
      rw [g1, au] at S
      let s := MSess.put ⟨up, down, none⟩ .up (trafficRecv mem0 up).2
      have s1 : Mem.space 5 = 16384 := rfl
      have K3 := K2.store L (trafficRecv mem0 up).1 (by
        intro x hx
        have hu := hx (5, j) (by simp)
        have hd := hx (5, j') (by simp)
        have g1 := hgu.2
        have g2 := hgd.2
        have e1 : up.blk = (5, j) := rfl
        have e2 : down.blk = (5, j') := rfl
        rw [e1] at g1
        rw [e2] at g2
        dsimp only at hu hd
        rw [s1] at hu hd
        rw [Kp.mem x (by show ¬ (up.start ≤ x ∧ x < up.start + cap); simp only [cap]; omega)
          (by show ¬ (down.start ≤ x ∧ x < down.start + cap); simp only [cap]; omega)]
        show wr p2.mem up.start early x = p2.mem x
        unfold wr
        rw [if_neg (by omega)])
      have K4 := K3.push (s := gone s) (t := { Sess.put ⟨Dir.start early srcUp dstUp, Dir.start [] srcDown dstDown, none⟩ .up
        (Tunnel.trafficRecv (Dir.start early srcUp dstUp)) with closed := some .timeout }) rfl (gone_SA S)
      have u1 : s.up.blk = (5, j) := Kp.up.1
      have u2 : s.down.blk = (5, j') := Kp.down.1
      have K5 := K4.swapEx.exEq (ex' := [s.up.blk, s.down.blk]) (by rw [u1, u2])
      have hgeo : Geo base s.up ∧ Geo base s.down := by
        refine ⟨?_, ?_⟩
        · unfold Geo; rw [Kp.up.1, Kp.up.2]; exact hgu
        · unfold Geo; rw [Kp.down.1, Kp.down.2]; exact hgd
      obtain ⟨lv', R⟩ := settle_inv (k := w.sess.length) K5 (s0 := gone s) (by simp) rfl hgeo S hp
      refine ⟨lv', ?_⟩
      have hlen : w.sess.length = l.length := H.ag.length_eq
      have e3 : (w.sess ++ [gone s]).set w.sess.length s = w.sess ++ [s] := by simp
      have e4 : ∀ t t', (l ++ [t]).set w.sess.length t' = l ++ [t'] := by intro t t'; rw [hlen]; simp
      dsimp only at R
      rw [e3, e4] at R
      exact R
    · next r p2 hr e2 =>
      have hr' : ∀ i j, r ≠ .ptr i j := fun i' j' he => by subst he; exact hr _ _ rfl
      have : p2 = p1 := (Mem.alloc_other e2 hr').2
      subst this
      split at h
      · next r3 p3 e3 =>
        simp only [Option.some.injEq, Prod.mk.injEq] at h
        obtain ⟨rfl, rfl⟩ := h
        exact ⟨_, K1.free (b := (5, j)) e3⟩
      · simp at h
    · simp at h
  · next r p1 hr e1 =>
    have hr' : ∀ i j, r ≠ .ptr i j := fun i' j' he => by subst he; exact hr _ _ rfl
    have : p1 = w.pool := (Mem.alloc_other e1 hr').2
    subst this
    simp only [Option.some.injEq, Prod.mk.injEq] at h
    obtain ⟨rfl, rfl⟩ := h
    exact ⟨lv, H⟩
  · simp at h

/-- Bytes received before the relay starts fit into the buffer they are in. -/
def okAct : Act → Prop
  | .start early _ _ _ _ => early.length ≤ 12288
  | _ => True

theorem step_inv {base : Nat → Nat} (L : Mem.Layout base) {w w' : Wk} {l : List Sess} {lv : List (Nat × Nat)} (H : WI base w l lv [])
    {a : Act} {o : Out} (ha : okAct a) (h : step w a = some (o, w')) : ∃ lv', WI base w' (Spec.step l (a, o)) lv' [] := by
  cases a with
  | start early srcUp dstUp srcDown dstDown => exact start_inv L H ha h
  | event k e => exact event_inv L H h
  | alloc n =>
    simp only [step] at h
    split at h
    · next i j p e =>
      simp only [Option.some.injEq, Prod.mk.injEq] at h
      obtain ⟨rfl, rfl⟩ := h
      obtain ⟨K, -⟩ := H.alloc L e
      refine ⟨_, K.mi, K.hbase, ?_, ?_, K.geo, K.ag⟩
      · have := K.nd
        refine (List.Perm.nodup_iff ?_).mp this
        rw [List.perm_iff_count]
        intro x
        simp only [List.count_append, List.count_cons, List.count_nil]
        omega
      · intro b
        rw [← K.all b]
        simp only [List.nil_append, List.cons_append, List.mem_append, List.mem_cons, List.not_mem_nil, or_false]
        tauto
    · next r p hr e =>
      have hr' : ∀ i j, r ≠ .ptr i j := fun i' j' he => by subst he; exact hr _ _ rfl
      have : p = w.pool := (Mem.alloc_other e hr').2
      subst this
      simp only [Option.some.injEq, Prod.mk.injEq] at h
      obtain ⟨rfl, rfl⟩ := h
      exact ⟨lv, H⟩
    · simp at h
  | free k =>
    simp only [step] at h
    split at h
    · simp only [Option.some.injEq, Prod.mk.injEq] at h
      obtain ⟨rfl, rfl⟩ := h
      exact ⟨lv, H⟩
    · next b hk =>
      split at h
      · next r p e =>
        simp only [Option.some.injEq, Prod.mk.injEq] at h
        obtain ⟨rfl, rfl⟩ := h
        have pm : ([b] ++ (w.held.eraseIdx k ++ w.sess.flatMap blks)).Perm ([] ++ (w.held ++ w.sess.flatMap blks)) := by
          obtain ⟨hlt, hb⟩ := List.getElem?_eq_some_iff.mp hk
          have := List.getElem_cons_eraseIdx_perm hlt
          rw [hb] at this
          exact List.Perm.append_right _ this
        have K : WI base { w with held := w.held.eraseIdx k } l lv [b] :=
          ⟨H.mi, H.hbase, pm.nodup_iff.mpr H.nd, fun c => pm.mem_iff.trans (H.all c), H.geo, H.ag⟩
        exact ⟨_, K.free e⟩
      · simp at h
  | write k off v =>
    simp only [step] at h
    split at h
    · simp only [Option.some.injEq, Prod.mk.injEq] at h
      obtain ⟨rfl, rfl⟩ := h
      exact ⟨lv, H⟩
    · next b hk =>
      split at h
      · next hoff =>
        simp only [Option.some.injEq, Prod.mk.injEq] at h
        obtain ⟨rfl, rfl⟩ := h
        have pm : ([b] ++ (w.held.eraseIdx k ++ w.sess.flatMap blks)).Perm ([] ++ (w.held ++ w.sess.flatMap blks)) := by
          obtain ⟨hlt, hb⟩ := List.getElem?_eq_some_iff.mp hk
          have := List.getElem_cons_eraseIdx_perm hlt
          rw [hb] at this
          exact List.Perm.append_right _ this
        have K : WI base { w with held := w.held.eraseIdx k } l lv [b] :=
          ⟨H.mi, H.hbase, pm.nodup_iff.mpr H.nd, fun c => pm.mem_iff.trans (H.all c), H.geo, H.ag⟩
        have K2 := K.store L (wr w.pool.mem (w.pool.addr b.1 b.2 + off) [v]) (by
          intro x hx
          have := hx b (by simp)
          show wr w.pool.mem (w.pool.addr b.1 b.2 + off) [v] x = w.pool.mem x
          unfold wr
          rw [addr_at H.hbase]
          have hb : at_ base (b.1, b.2) = at_ base b := rfl
          rw [if_neg (by simp only [List.length_singleton]; omega)])
        exact ⟨lv, ⟨K2.mi, K2.hbase, H.nd, H.all, H.geo, K2.ag⟩⟩
      · simp only [Option.some.injEq, Prod.mk.injEq] at h
        obtain ⟨rfl, rfl⟩ := h
        exact ⟨lv, H⟩

theorem run_inv {base : Nat → Nat} (L : Mem.Layout base) : ∀ (as : List Act) {w w' : Wk} {l : List Sess} {lv : List (Nat × Nat)} {os : List Out},
    WI base w l lv [] → (∀ a ∈ as, okAct a) → run w as = some (os, w') →
    os.length = as.length ∧ ∃ lv', WI base w' ((as.zip os).foldl Spec.step l) lv' []
  | [], w, w', l, lv, os, H, _, h => by
    simp only [run, Option.some.injEq, Prod.mk.injEq] at h
    obtain ⟨rfl, rfl⟩ := h
    exact ⟨rfl, lv, H⟩
  | a :: as, w, w', l, lv, os, H, hok, h => by
    simp only [run] at h
    split at h
    · simp at h
    · next o w1 e =>
      rw [Option.map_eq_some_iff] at h
      obtain ⟨r, hr, hw⟩ := h
      simp only [Prod.mk.injEq] at hw
      obtain ⟨rfl, rfl⟩ := hw
      obtain ⟨lv1, H1⟩ := step_inv L H (hok a (by simp)) e
      obtain ⟨h1, h2⟩ := run_inv L as H1 (fun a ha => hok a (by simp [ha])) hr
      exact ⟨by simp [h1], h2⟩

theorem init_inv (base : Nat → Nat) : WI base (init base) [] [] [] :=
  ⟨Mem.init_inv base, rfl, by simp [init], by simp [init], by simp [init], .nil⟩

end Verif.Worker
