import Verif.Model.Webser
import Verif.Spec.Web
import Verif.Props.EzHash
import Verif.Props.NetSend
namespace Verif.Web
open Verif.WebSpec
open Verif.Http (Meth)

theorem dds_iff (s : List UInt8) : hasDotDotSlash s = true ↔ Occurs [46, 46, 47] s := by
  induction s with
  | nil =>
    simp only [hasDotDotSlash, Bool.false_eq_true, false_iff]
    rintro ⟨a, b, h⟩
    have := congrArg List.length h
    simp at this
  | cons x r ih =>
    simp only [hasDotDotSlash, Bool.or_eq_true, ih]
    constructor
    · rintro (h | ⟨a, b, h⟩)
      · obtain ⟨t, ht⟩ := List.isPrefixOf_iff_prefix.mp h
        exact ⟨[], t, ht.symm⟩
      · exact ⟨x :: a, b, by rw [h]; rfl⟩
    · rintro ⟨a, b, h⟩
      cases a with
      | nil => exact .inl (List.isPrefixOf_iff_prefix.mpr ⟨b, h.symm⟩)
      | cons y a =>
        simp only [List.cons_append, List.cons.injEq] at h
        exact .inr ⟨a, b, h.2⟩

theorem comps_ne (r : List UInt8) : comps r ≠ [] := by
  cases r with
  | nil => simp [comps]
  | cons b r =>
    simp only [comps]
    split
    · simp
    · split <;> simp

/-- The text up to the first slash is the first component. -/
theorem comps_cons (r : List UInt8) (c : List UInt8) (cs : List (List UInt8)) (h : comps r = c :: cs) (hcs : cs ≠ []) :
    ∃ r', r = c ++ 47 :: r' := by
  induction r generalizing c with
  | nil => simp only [comps, List.cons.injEq] at h; exact absurd h.2.symm hcs
  | cons b r ih =>
    simp only [comps] at h
    split at h
    · rename_i hb
      simp only [List.cons.injEq] at h
      exact ⟨r, by rw [← h.1, hb]; rfl⟩
    · split at h
      · rename_i hr; exact absurd hr (comps_ne r)
      · rename_i c' cs' hr
        simp only [List.cons.injEq] at h
        obtain ⟨r', e⟩ := ih c' (by rw [hr, h.2])
        exact ⟨r', by rw [← h.1, e]; rfl⟩

theorem comps_dds (s : List UInt8) (h : [46, 46] ∈ (comps s).dropLast) : Occurs [46, 46, 47] s := by
  induction s with
  | nil => simp [comps] at h
  | cons b r ih =>
    have up : Occurs [46, 46, 47] r → Occurs [46, 46, 47] (b :: r) := fun ⟨a, t, e⟩ => ⟨b :: a, t, by rw [e]; rfl⟩
    simp only [comps] at h
    split at h
    · rw [List.dropLast_cons_of_ne_nil (comps_ne r)] at h
      simp only [List.mem_cons, reduceCtorEq, false_or] at h
      exact up (ih h)
    · split at h
      · simp at h
      · rename_i c cs hr
        by_cases hcs : cs = []
        · simp [hcs] at h
        · rw [List.dropLast_cons_of_ne_nil hcs] at h
          rcases List.mem_cons.mp h with h | h
          · obtain ⟨r', e⟩ := comps_cons r c cs hr hcs
            simp only [List.cons.injEq] at h
            exact ⟨[], r', by rw [e, ← h.1, ← h.2]; rfl⟩
          · exact up (ih (by rw [hr, List.dropLast_cons_of_ne_nil hcs]; exact List.mem_cons_of_mem _ h))

/-- The converse for a slash in front of the dots. -/
theorem comps_append_slash (a r : List UInt8) : comps (a ++ 47 :: r) = (comps a) ++ comps r := by
  induction a with
  | nil => simp [comps]
  | cons b a ih =>
    simp only [List.cons_append, comps]
    split
    · rw [ih]; rfl
    · rw [ih]
      cases h : comps a with
      | nil => exact absurd h (comps_ne a)
      | cons c cs => rfl

theorem lastDot_split (a e : List UInt8) (he : 46 ∉ e) : lastDot (a ++ 46 :: e) = some (46 :: e) := by
  have h0 : ∀ e : List UInt8, 46 ∉ e → lastDot e = none := by
    intro e he
    induction e with
    | nil => rfl
    | cons x e ih =>
      simp only [List.mem_cons, not_or] at he
      simp only [lastDot, ih he.2]
      rw [if_neg (fun h => he.1 h.symm)]
  induction a with
  | nil => simp [lastDot, h0 e he]
  | cons x a ih => simp only [List.cons_append, lastDot, ih]

theorem lastDot_none (p : List UInt8) : lastDot p = none ↔ 46 ∉ p := by
  induction p with
  | nil => simp [lastDot]
  | cons x p ih =>
    simp only [lastDot, List.mem_cons, not_or]
    cases h : lastDot p with
    | some s =>
      rw [h] at ih
      simp only [reduceCtorEq, false_iff] at ih ⊢
      exact fun hc => ih hc.2
    | none =>
      rw [h] at ih
      by_cases hx : x = 46
      · simp [hx]
      · simp [hx, ih.mp rfl, Ne.symm hx]

theorem exists_last_dot (p : List UInt8) (h : 46 ∈ p) : ∃ a e, p = a ++ 46 :: e ∧ 46 ∉ e := by
  induction p with
  | nil => simp at h
  | cons x p ih =>
    by_cases hp : (46 : UInt8) ∈ p
    · obtain ⟨a, e, h1, h2⟩ := ih hp
      exact ⟨x :: a, e, by rw [h1]; rfl, h2⟩
    · rcases List.mem_cons.mp h with h | h
      · exact ⟨[], p, by rw [h]; rfl, hp⟩
      · exact absurd h hp

/-- The insertions as a history. -/
def mimeOps : List (EzHash.Op (List UInt8) (List UInt8)) := mimeAdds.map fun kv => .put kv.1 kv.2 true true true

theorem fold_run (l : List (List UInt8 × List UInt8)) (hl : ∀ kv ∈ l, kv.1 ≠ []) (t : EzHash.Tab (List UInt8)) :
    EzHash.run EzHash.fnv1a t (l.map fun kv => .put kv.1 kv.2 true true true) = some (l.foldl mimeAdd t) := by
  induction l generalizing t with
  | nil => rfl
  | cons kv l ih =>
    simp only [List.map_cons, List.foldl_cons, EzHash.run, EzHash.step]
    have hk : ¬ kv.1.length = 0 := fun h => hl kv (by simp) (List.length_eq_zero_iff.mp h)
    have e : mimeAdd t kv = match EzHash.add EzHash.fnv1a t kv.1 kv.2 true true true with | .ok t' => t' | _ => t := rfl
    cases hA : EzHash.add EzHash.fnv1a t kv.1 kv.2 true true true with
    | ok t' =>
      rw [hA] at e
      simp only at e
      rw [← e]
      exact ih (fun kv h => hl kv (List.mem_cons_of_mem _ h)) _
    | noMem =>
      rw [hA] at e
      simp only at e
      have := ih (fun kv h => hl kv (List.mem_cons_of_mem _ h)) t
      simpa [e] using this
    | abort =>
      exfalso
      unfold EzHash.add at hA
      split at hA
      · simp at hA
      · simp [hk] at hA

theorem mime_find (k : List UInt8) : EzHash.find EzHash.fnv1a mimeTab k = EzHash.valueOf k none mimeOps :=
  EzHash.c25_refines EzHash.fnv1a (by decide) (fold_run mimeAdds (by decide +kernel) _) k


theorem valueOf_puts (k : List UInt8) (l : List (List UInt8 × List UInt8)) :
    (∀ v, EzHash.valueOf k (some v) (l.map fun kv => EzHash.Op.put kv.1 kv.2 true true true) = some v) ∧
    EzHash.valueOf k none (l.map fun kv => EzHash.Op.put kv.1 kv.2 true true true) =
      (l.find? fun kv => kv.1 = k).map (·.2) := by
  induction l with
  | nil => exact ⟨fun _ => rfl, rfl⟩
  | cons kv l ih =>
    constructor
    · intro v; simp only [List.map_cons, EzHash.valueOf, reduceCtorEq, false_and, and_false, if_false]; exact ih.1 v
    · simp only [List.map_cons, EzHash.valueOf]
      by_cases h : kv.1 = k
      · simp [h, ih.1]
      · simp [h, ih.2]

theorem adds_table : ∀ kv ∈ mimeAdds, ∃ x ∈ table, kv = (46 :: ascii x.1, ascii x.2) := by decide +kernel

theorem table_adds : ∀ x ∈ table, (mimeAdds.find? fun kv => kv.1 = 46 :: ascii x.1) = some (46 :: ascii x.1, ascii x.2) := by
  decide +kernel

theorem table_noslash : ∀ x ∈ table, 47 ∉ ascii x.1 := by decide +kernel

/-- The lookup agrees with the documented table. -/
theorem mime_table (e : List UInt8) :
    (∃ x ∈ table, e = ascii x.1 ∧ EzHash.find EzHash.fnv1a mimeTab (46 :: e) = some (ascii x.2)) ∨
    ((∀ x ∈ table, e ≠ ascii x.1) ∧ EzHash.find EzHash.fnv1a mimeTab (46 :: e) = none) := by
  rw [mime_find, mimeOps, (valueOf_puts _ _).2]
  cases h : mimeAdds.find? fun kv => kv.1 = 46 :: e with
  | none =>
    refine .inr ⟨fun x hx hc => ?_, rfl⟩
    rw [hc, table_adds x hx] at h
    simp at h
  | some kv =>
    obtain ⟨x, hx, hkv⟩ := adds_table kv (List.mem_of_find?_eq_some h)
    have hk := List.find?_some h
    simp only [decide_eq_true_eq, hkv, List.cons.injEq, true_and] at hk
    exact .inl ⟨x, hx, hk.symm, by rw [hkv]; rfl⟩

theorem snp_ok (p : List UInt8) (x : List UInt8) (h : p.length + x.length < pathn) :
    snp p p.length x = some (p ++ x, (p ++ x).length) := by
  unfold snp
  rw [if_pos (by omega), List.take_of_length_le (by simp only [List.length_append]; omega), List.length_append]


/-- Streaming invariant: what was sent (`w`) followed by the buffer is the part of the file read so far. -/
def FfInv (file w : List UInt8) (st : Ff) : Prop :=
  w ++ st.buf = file.take st.off ∧ st.fsend = w.length ∧ st.off ≤ file.length

theorem ffRead_inv {file w : List UInt8} {fsize : Int} {st : Ff} {tx : List Net.Tx} {rd : List Nat} {z : FfNext}
    (inv : FfInv file w st) (h : ffRead file fsize st tx rd = z) :
    (z = .inl .done → fsize ≤ w.length) ∧ ∀ o, z = .inr o → FfInv file w o.1 := by
  obtain ⟨h1, h2, h3⟩ := inv
  unfold ffRead at h
  split at h
  · subst h; exact ⟨fun _ => by omega, by simp⟩
  · split at h
    · cases rd with
      | nil => subst h; simp
      | cons n rd' =>
        simp only at h
        split at h
        · subst h; simp
        · subst h
          refine ⟨by simp, fun o ho => ?_⟩
          simp only [Sum.inr.injEq] at ho
          subst ho
          refine ⟨?_, h2, ?_⟩
          · simp only
            rw [← List.append_assoc, h1, List.take_add]
            congr 1
            rw [List.length_take, List.take_eq_take_min, List.take_eq_take_min (i := min _ (List.length _))]
          · simp only [List.length_take, List.length_drop]; omega
    · subst h
      refine ⟨by simp, fun o ho => ?_⟩
      simp only [Sum.inr.injEq] at ho
      subst ho
      exact ⟨h1, h2, h3⟩

theorem ffStep_inv {file w : List UInt8} {fsize : Int} {st : Ff} {tx : List Net.Tx} {rd : List Nat} {x : List UInt8} {z : FfNext}
    (inv : FfInv file w st) (h : ffStep file fsize st tx rd = (x, z)) :
    (w ++ x) <+: file ∧ (z = .inl .done → fsize ≤ (w ++ x).length) ∧ ∀ o, z = .inr o → FfInv file (w ++ x) o.1 := by
  obtain ⟨h1, h2, h3⟩ := inv
  have hw : w <+: file := (List.prefix_append w st.buf).trans (h1 ▸ List.take_prefix _ _)
  unfold ffStep at h
  split at h
  · obtain ⟨rfl, hz⟩ := Prod.mk.inj h
    rw [List.append_nil]
    exact ⟨hw, ffRead_inv ⟨h1, h2, h3⟩ hz⟩
  · cases tx with
    | nil => obtain ⟨rfl, rfl⟩ := Prod.mk.inj h; exact ⟨by simpa using hw, by simp⟩
    | cons y tx' =>
      cases y with
      | again =>
        obtain ⟨rfl, rfl⟩ := Prod.mk.inj h
        refine ⟨by simpa using hw, by simp, fun o ho => ?_⟩
        simp only [Sum.inr.injEq] at ho
        subst ho
        rw [List.append_nil]
        exact ⟨h1, h2, h3⟩
      | fail => obtain ⟨rfl, rfl⟩ := Prod.mk.inj h; exact ⟨by simpa using hw, by simp⟩
      | sent n =>
        obtain ⟨rfl, hz⟩ := Prod.mk.inj h
        have inv' : FfInv file (w ++ st.buf.take n) { st with buf := st.buf.drop n, fsend := st.fsend + min n st.buf.length } := by
          refine ⟨?_, ?_, h3⟩
          · simp only [List.append_assoc, List.take_append_drop]; exact h1
          · simp only [List.length_append, List.length_take, h2]
        refine ⟨?_, ffRead_inv inv' hz⟩
        refine List.IsPrefix.trans ?_ (h1 ▸ List.take_prefix st.off file)
        rw [List.prefix_append_right_inj]
        exact List.take_prefix _ _

theorem ff_spec (file : List UInt8) (fsize : Int) (st : Ff) (tx : List Net.Tx) (rd : List Nat) (w : List UInt8)
    (inv : FfInv file w st) :
    (w ++ (ff file fsize st tx rd).wire) <+: file ∧
      ((ff file fsize st tx rd).fin = .done → fsize ≤ (w ++ (ff file fsize st tx rd).wire).length) := by
  fun_induction ff file fsize st tx rd generalizing w with
  | case1 st tx rd x e h =>
    have := ffStep_inv inv h
    exact ⟨this.1, fun he => this.2.1 (by simp only at he; rw [he])⟩
  | case2 st tx rd x o h ih =>
    have := ih (w ++ x) ((ffStep_inv inv h).2.2 o rfl)
    simpa [FfOut.pre, List.append_assoc] using this

/-- Number of sends that accept data. -/
def sents (tx : List Net.Tx) : Nat := (tx.filter fun x => match x with | .sent _ => true | _ => false).length

/-- A socket that accepts all bytes offered, or none because it would block. -/
def Whole (tx : List Net.Tx) : Prop := ∀ x ∈ tx, x = .again ∨ ∃ n, x = .sent n ∧ ffCap ≤ n

theorem ffRead_live {file w : List UInt8} {st : Ff} {tx : List Net.Tx} {rd : List Nat} (inv : FfInv file w st)
    (hb : st.buf = []) (hr : ∀ n ∈ rd, 0 < n) (hn : file.length - st.off ≤ rd.length) :
    ffRead file file.length st tx rd = .inl .done ∨
    ∃ o, ffRead file file.length st tx rd = .inr o ∧ o.1.buf.length ≤ ffCap ∧ o.2.1 = tx ∧ (∀ n ∈ o.2.2, 0 < n) ∧
      file.length - o.1.off ≤ o.2.2.length := by
  obtain ⟨h1, h2, h3⟩ := inv
  unfold ffRead
  by_cases hd : (st.fsend : Int) ≥ file.length
  · rw [if_pos hd]; exact .inl rfl
  · rw [if_neg hd]
    have hl : w.length = st.off := by
      have := congrArg List.length h1
      rw [hb, List.append_nil, List.length_take] at this
      omega
    have h0 : ffLast st = 0 := by simp [ffLast, hb]
    rw [h0, if_pos (by decide)]
    cases rd with
    | nil => simp only [List.length_nil] at hn; omega
    | cons n rd' =>
      simp only
      have hn0 := hr n (by simp)
      have hne : ¬ (file.drop st.off).take (min n (ffCap - 0)) = [] := by
        rw [List.take_eq_nil_iff, List.drop_eq_nil_iff]
        have : 0 < ffCap - 0 := by decide
        omega
      rw [if_neg hne]
      refine .inr ⟨_, rfl, ?_, rfl, fun m hm => hr m (List.mem_cons_of_mem _ hm), ?_⟩
      · simp only [hb, List.nil_append, List.length_take]; omega
      · simp only
        have : 0 < ((file.drop st.off).take (min n (ffCap - 0))).length := List.length_pos_iff.mpr hne
        simp only [List.length_cons] at hn
        omega

theorem ff_live_step (file : List UInt8) (st : Ff) (tx : List Net.Tx) (rd : List Nat) (w : List UInt8)
    (inv : FfInv file w st) (hb : st.buf.length ≤ ffCap) (ht : Whole tx) (hr : ∀ n ∈ rd, 0 < n)
    (hs : file.length - w.length ≤ sents tx) (hn : file.length - st.off ≤ rd.length) :
    (ffStep file file.length st tx rd).2 = .inl .done ∨
      ∃ x o, ffStep file file.length st tx rd = (x, .inr o) ∧ o.1.buf.length ≤ ffCap ∧ Whole o.2.1 ∧ (∀ n ∈ o.2.2, 0 < n) ∧
        file.length - (w ++ x).length ≤ sents o.2.1 ∧ file.length - o.1.off ≤ o.2.2.length := by
  unfold ffStep
  by_cases hbe : st.buf = []
  · rw [if_pos hbe]
    rcases ffRead_live (tx := tx) inv hbe hr hn with h | ⟨o, h, h1, h2, h3, h4⟩
    · exact .inl h
    · exact .inr ⟨[], o, by rw [h], h1, by rw [h2]; exact ht, h3, by rw [List.append_nil, h2]; exact hs, h4⟩
  · rw [if_neg hbe]
    cases tx with
    | nil =>
      exfalso
      have := congrArg List.length inv.1
      have hp := List.length_pos_iff.mpr hbe
      simp only [List.length_append, List.length_take] at this
      simp only [sents, List.filter_nil, List.length_nil] at hs
      omega
    | cons y tx' =>
      have ht' : Whole tx' := fun x hx => ht x (List.mem_cons_of_mem _ hx)
      rcases ht y (by simp) with rfl | ⟨n, rfl, hc⟩
      · exact .inr ⟨[], _, rfl, hb, ht', hr, by simpa [sents] using hs, hn⟩
      · simp only
        have hdrop : st.buf.drop n = [] := List.drop_eq_nil_iff.mpr (by omega)
        have inv' : FfInv file (w ++ st.buf.take n)
            { st with buf := st.buf.drop n, fsend := st.fsend + min n st.buf.length } := by
          refine ⟨?_, ?_, inv.2.2⟩
          · simp only [List.append_assoc, List.take_append_drop]; exact inv.1
          · simp only [List.length_append, List.length_take, inv.2.1]
        rcases ffRead_live (tx := tx') inv' hdrop hr hn with h | ⟨o, h, h1, h2, h3, h4⟩
        · exact .inl h
        · refine .inr ⟨_, o, by rw [h], h1, by rw [h2]; exact ht', h3, ?_, h4⟩
          have hp := List.length_pos_iff.mpr hbe
          have hs' : sents (Net.Tx.sent n :: tx') = sents tx' + 1 := by simp [sents]
          rw [hs'] at hs
          rw [h2]
          simp only [List.length_append, List.length_take]
          omega

theorem ff_live (file : List UInt8) (st : Ff) (tx : List Net.Tx) (rd : List Nat) (w : List UInt8)
    (inv : FfInv file w st) (hb : st.buf.length ≤ ffCap) (ht : Whole tx) (hr : ∀ n ∈ rd, 0 < n)
    (hs : file.length - w.length ≤ sents tx) (hn : file.length - st.off ≤ rd.length) :
    (ff file file.length st tx rd).fin = .done := by
  generalize hm : tx.length + rd.length = m
  induction m using Nat.strongRecOn generalizing st tx rd w with
  | _ m ih =>
    have step := ff_live_step file st tx rd w inv hb ht hr hs hn
    rw [ff]
    split
    · rename_i x e h
      rcases step with hd | ⟨x', o, h', _⟩
      · rw [h] at hd; simpa using hd
      · rw [h] at h'; simp at h'
    · rename_i x o h
      rcases step with hd | ⟨x', o', h', h1, h2, h3, h4, h5⟩
      · rw [h] at hd; simp at hd
      · rw [h] at h'
        simp only [Prod.mk.injEq, Sum.inr.injEq] at h'
        obtain ⟨rfl, rfl⟩ := h'
        simp only [FfOut.pre]
        exact ih _ (by have := ffStep_lt h; omega) o.1 o.2.1 o.2.2 (w ++ x) ((ffStep_inv inv h).2.2 o rfl) h1 h2 h3 h4 h5 rfl

/-- The unsent bytes are the end of what is in the buffer, which has room for 16344. -/
def FfRoom (st : Ff) : Prop := st.buf.length ≤ st.last ∧ st.last ≤ 16344

theorem ffRead_closed {file w : List UInt8} {st : Ff} {tx : List Net.Tx} {rd : List Nat} (inv : FfInv file w st) (hk : FfRoom st)
    (hr : ∀ n ∈ rd, 0 < n) (hn : file.length - st.off ≤ rd.length) (h : ffRead file file.length st tx rd = .inl .closed) :
    file.length ≤ w.length + 16344 := by
  obtain ⟨h1, h2, h3⟩ := inv
  have hl := congrArg List.length h1
  simp only [List.length_append, List.length_take] at hl
  obtain ⟨k1, k2⟩ := hk
  have key : file.length ≤ st.off → file.length ≤ w.length + 16344 := by intro hx; omega
  unfold ffRead at h
  split at h
  · cases h
  · split at h
    · next hroom =>
      cases rd with
      | nil => apply key; simp at hn; omega
      | cons n rd' =>
        simp only at h
        split at h
        · next hg =>
          have hn0 := hr n (by simp)
          rw [List.take_eq_nil_iff, List.drop_eq_nil_iff] at hg
          apply key
          omega
        · cases h
    · cases h

theorem ffRead_room {file : List UInt8} {st : Ff} {tx : List Net.Tx} {rd : List Nat} {o : Ff × List Net.Tx × List Nat} (hk : FfRoom st)
    (hr : ∀ n ∈ rd, 0 < n) (hn : file.length - st.off ≤ rd.length) (h : ffRead file file.length st tx rd = .inr o) :
    FfRoom o.1 ∧ o.2.1 = tx ∧ (∀ n ∈ o.2.2, 0 < n) ∧ file.length - o.1.off ≤ o.2.2.length := by
  obtain ⟨k1, k2⟩ := hk
  have e0 : ffCap = 16344 := rfl
  have hlast : st.buf.length ≤ ffLast st ∧ ffLast st ≤ 16344 := by
    unfold ffLast
    split
    · next hb => rw [hb]; simp
    · exact ⟨k1, k2⟩
  unfold ffRead at h
  split at h
  · cases h
  · split at h
    · cases rd with
      | nil => cases h
      | cons n rd' =>
        simp only at h
        split at h
        · cases h
        · next hg =>
          cases h
          have := List.length_pos_iff.mpr hg
          simp only [List.length_cons] at hn
          refine ⟨⟨?_, ?_⟩, rfl, fun m hm => hr m (List.mem_cons_of_mem _ hm), ?_⟩
          · simp only [List.length_append]; omega
          · simp only [List.length_take]; omega
          · simp only; omega
    · cases h
      exact ⟨⟨hlast.1, hlast.2⟩, rfl, hr, hn⟩

theorem ff_closed (file : List UInt8) (st : Ff) (tx : List Net.Tx) (rd : List Nat) (w : List UInt8) (inv : FfInv file w st) (hk : FfRoom st)
    (ht : .fail ∉ tx) (hr : ∀ n ∈ rd, 0 < n) (hn : file.length - st.off ≤ rd.length) (h : (ff file file.length st tx rd).fin = .closed) :
    file.length ≤ w.length + (ff file file.length st tx rd).wire.length + 16344 := by
  generalize hm : tx.length + rd.length = m
  induction m using Nat.strongRecOn generalizing st tx rd w with
  | _ m ih =>
    have hsent : ∀ n, FfInv file (w ++ st.buf.take n) { st with buf := st.buf.drop n, fsend := st.fsend + min n st.buf.length } := by
      intro n
      refine ⟨?_, ?_, inv.2.2⟩
      · simp only [List.append_assoc, List.take_append_drop]; exact inv.1
      · simp only [List.length_append, List.length_take, inv.2.1]
    have hroom : ∀ n k, FfRoom { st with buf := st.buf.drop n, fsend := k } := by
      intro n k
      refine ⟨?_, hk.2⟩
      have := hk.1
      simp only [List.length_drop]; omega
    rw [ff] at h ⊢
    split at h
    · next x e hs =>
      simp only at h
      subst h
      unfold ffStep at hs
      split at hs
      · obtain ⟨rfl, hs'⟩ := Prod.mk.inj hs
        have := ffRead_closed inv hk hr hn hs'
        simp; omega
      · cases tx with
        | nil => simp at hs
        | cons y tx' =>
          cases y with
          | again => simp at hs
          | fail => exact absurd (by simp) ht
          | sent n =>
            obtain ⟨rfl, hs'⟩ := Prod.mk.inj hs
            have := ffRead_closed (hsent n) (hroom n _) hr hn hs'
            simp only [List.length_append] at this
            simp only; omega
    · next x o hs =>
      have hlt := ffStep_lt hs
      have hinv := (ffStep_inv inv hs).2.2 o rfl
      have hnext : FfRoom o.1 ∧ .fail ∉ o.2.1 ∧ (∀ n ∈ o.2.2, 0 < n) ∧ file.length - o.1.off ≤ o.2.2.length := by
        unfold ffStep at hs
        split at hs
        · have := ffRead_room hk hr hn (Prod.mk.inj hs).2
          rw [this.2.1]; exact ⟨this.1, ht, this.2.2⟩
        · cases tx with
          | nil => simp at hs
          | cons y tx' =>
            have ht' : .fail ∉ tx' := fun hx => ht (List.mem_cons_of_mem _ hx)
            cases y with
            | again => obtain ⟨-, hs⟩ := Prod.mk.inj hs; cases hs; exact ⟨hk, ht', hr, hn⟩
            | fail => exact absurd (by simp) ht
            | sent n =>
              have := ffRead_room (hroom n _) hr hn (Prod.mk.inj hs).2
              rw [this.2.1]; exact ⟨this.1, ht', this.2.2⟩
      simp only [FfOut.pre] at h ⊢
      have := ih _ (by omega) o.1 o.2.1 o.2.2 (w ++ x) hinv hnext.1 hnext.2.1 hnext.2.2.1 hnext.2.2.2 h rfl
      simp only [List.length_append] at this ⊢
      omega

end Verif.Web
