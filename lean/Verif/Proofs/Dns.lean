import Verif.Model.Dns
import Verif.Spec.Dns
import Verif.Proofs.EzHash
/-
Lemmas about the resolver model.
-/
namespace Verif.Dns

open DnsSpec EzHash

theorem host2qname_push (l rest : List UInt8) : ∀ (stack out : List UInt8), 46 ∉ l → stack.length + l.length ≤ 256 →
    host2qname (l ++ rest) stack out = host2qname rest (stack ++ l) out := by
  induction l with
  | nil => intro stack out _ _; simp
  | cons c r ih =>
    intro stack out h hl
    simp only [List.mem_cons, not_or, List.length_cons] at h hl
    have h1 : ¬ c = 46 := fun e => h.1 e.symm
    have h2 : stack.length < 256 := by omega
    simp only [List.cons_append, host2qname, h1, h2, if_false, if_true]
    rw [ih _ _ h.2 (by simp; omega)]
    simp

/-- Wire form of a list of labels. -/
def qname : List (List UInt8) → List UInt8
  | [] => [0]
  | l :: r => putLabel l ++ qname r

theorem host2qname_text (ls : List (List UInt8)) (h : ∀ l ∈ ls, Label l) :
    ∀ out, host2qname (hostText ls) [] out = some (out ++ qname ls) := by
  induction ls with
  | nil => intro out; simp [hostText, host2qname, qname]
  | cons l r ih =>
    intro out
    have hl := h l (by simp)
    have ih := ih (fun x hx => h x (List.mem_cons_of_mem _ hx))
    obtain ⟨h1, h2, h3, h4⟩ := hl
    cases r with
    | nil =>
      simp only [hostText]
      have := host2qname_push l [] [] out h3 (by simp; omega)
      rw [List.append_nil] at this
      rw [this]
      simp only [List.nil_append, host2qname]
      rw [if_pos (by omega)]
      simp [qname]
    | cons l' r' =>
      simp only [hostText]
      rw [host2qname_push l _ [] out h3 (by simp; omega)]
      simp only [List.nil_append, host2qname, if_true]
      rw [ih]
      simp [qname]

/-- A trailing dot changes nothing. -/
theorem host2qname_dot (ls : List (List UInt8)) (h : ∀ l ∈ ls, Label l) (hne : ls ≠ []) :
    ∀ out, host2qname (hostText ls ++ [46]) [] out = some (out ++ qname ls) := by
  induction ls with
  | nil => exact absurd rfl hne
  | cons l r ih =>
    intro out
    have hl := h l (by simp)
    obtain ⟨h1, h2, h3, h4⟩ := hl
    cases r with
    | nil =>
      simp only [hostText]
      rw [host2qname_push l _ [] out h3 (by simp; omega)]
      simp [host2qname, qname]
    | cons l' r' =>
      have ih := ih (fun x hx => h x (List.mem_cons_of_mem _ hx)) (by simp)
      simp only [hostText, List.append_assoc, List.cons_append]
      rw [host2qname_push l _ [] out h3 (by simp; omega)]
      simp only [List.nil_append, host2qname, if_true]
      rw [ih]
      simp [qname]

theorem decode_qname (ls : List (List UInt8)) (h : ∀ l ∈ ls, Label l) (rest : List UInt8) :
    decodeName (qname ls ++ rest) = some (ls, rest) := by
  induction ls with
  | nil => rw [qname, List.cons_append, decodeName]; simp
  | cons l r ih =>
    obtain ⟨h1, h2, h3, h4⟩ := h l (by simp)
    have ih := ih (fun x hx => h x (List.mem_cons_of_mem _ hx))
    have hn : (UInt8.ofNat l.length).toNat = l.length := by
      simp [UInt8.toNat_ofNat']; omega
    have hz : ¬ UInt8.ofNat l.length = 0 := by
      intro e
      have := congrArg UInt8.toNat e
      rw [hn] at this
      have h0 : l.length = 0 := this
      omega
    rw [qname, putLabel, List.cons_append, List.cons_append, decodeName]
    simp only [hz, if_false, hn]
    rw [if_pos ⟨h2, by simp⟩]
    simp only [List.append_assoc]
    rw [List.drop_left, ih]
    simp

/-- What the parser does at the end of a record's data (src/dns/dns.c:158-185). -/
theorem analyze_data (slack : List UInt8) (rd : Rd) (d : List UInt8) (rest : List UInt8) :
    ∀ got, d ≠ [] → got.length + d.length = rd.len →
    analyze slack (.data rd got) (d ++ rest) =
      if rd.type = 1 then
        if (got ++ d ++ rest ++ slack).length < 4 then .oob else .addr rd ((got ++ d ++ rest ++ slack).take 4)
      else analyze slack .name rest := by
  induction d with
  | nil => intro got h; exact absurd rfl h
  | cons b r ih =>
    intro got _ hl
    simp only [List.length_cons] at hl
    rw [List.cons_append, analyze]
    cases r with
    | nil =>
      simp only [List.length_nil] at hl
      rw [if_pos (by omega)]
      simp
    | cons b' r' =>
      simp only [List.length_cons] at hl
      rw [if_neg (by omega)]
      rw [ih (got ++ [b]) (by simp) (by simp; omega)]
      simp

theorem byte_of (n : Nat) : (UInt8.ofNat n).toNat = n % 256 := by simp [UInt8.toNat_ofNat']

theorem be16_u16 (n : Nat) (h : n < 65536) : be16 (UInt8.ofNat (n / 256)) (UInt8.ofNat n) = n := by
  simp only [be16, byte_of]; omega

theorem be32_u32 (n : Nat) (h : n < 4294967296) :
    be32 (UInt8.ofNat (n / 16777216)) (UInt8.ofNat (n / 65536)) (UInt8.ofNat (n / 256)) (UInt8.ofNat n) = n := by
  simp only [be32, byte_of]; omega

/-- The fields the parser sees for a record. -/
def rdRR (r : RR) : Rd := ⟨r.type, r.ttl, r.data.length⟩

theorem analyze_fixed (slack : List UInt8) (r : RR) (h : r.Ok) (rest : List UInt8) :
    analyze slack (.fixed []) (u16 r.type ++ (u16 r.cls ++ (u32 r.ttl ++ (u16 r.data.length ++ rest)))) =
      analyze slack (.data (rdRR r) []) rest := by
  obtain ⟨h1, h2, h3, h4⟩ := h
  simp only [u16, u32, List.cons_append, List.nil_append]
  simp only [analyze, List.nil_append, List.cons_append, List.length_nil, List.length_cons]
  simp only [Nat.reduceAdd, ge_iff_le, Nat.reduceLeDiff, if_false, if_true]
  simp only [rdOf, be16_u16 _ h1, be16_u16 _ h4, be32_u32 _ h3]
  rfl

theorem hi_ptr (hi : UInt8) (h : hi &&& 0xc0 = 0xc0) : hi &&& 0xc0 ≠ 0 := by
  rw [h]; decide

theorem analyze_rr (slack : List UInt8) (r : RR) (h : r.Ok) (hd : r.data ≠ []) (rest : List UInt8) :
    analyze slack .name (r.bytes ++ rest) =
      if r.type = 1 then
        if (r.data ++ rest ++ slack).length < 4 then .oob else .addr (rdRR r) ((r.data ++ rest ++ slack).take 4)
      else analyze slack .name rest := by
  have h1 : analyze slack .name (r.bytes ++ rest) = analyze slack (.data (rdRR r) []) (r.data ++ rest) := by
    rw [← analyze_fixed slack r h]
    simp only [RR.bytes, List.append_assoc]
    cases r.owner with
    | ptr hi lo hh =>
      simp only [Owner.bytes, List.cons_append, List.nil_append]
      rw [analyze, if_pos (hi_ptr hi hh), analyze]
    | root =>
      simp only [Owner.bytes, List.cons_append, List.nil_append]
      rw [analyze]
      simp
  rw [h1, analyze_data slack (rdRR r) r.data rest [] hd (by simp [rdRR])]
  simp [rdRR]

theorem analyze_rrs (slack : List UInt8) (rs : List RR) (h : ∀ r ∈ rs, r.Ok ∧ r.data ≠ []) (rest : List UInt8) :
    (∀ r, firstA rs = some r → 4 ≤ r.data.length →
      analyze slack .name (rrBytes rs ++ rest) = .addr (rdRR r) (r.data.take 4)) ∧
    (firstA rs = none → analyze slack .name (rrBytes rs ++ rest) = analyze slack .name rest) := by
  induction rs with
  | nil => simp [firstA, rrBytes]
  | cons r rs ih =>
    obtain ⟨hok, hne⟩ := h r (by simp)
    obtain ⟨ih1, ih2⟩ := ih (fun x hx => h x (List.mem_cons_of_mem _ hx))
    simp only [rrBytes, List.append_assoc]
    rw [analyze_rr slack r hok hne]
    by_cases ht : r.type = 1
    · simp only [ht, if_true, firstA]
      refine ⟨fun r' e hl => ?_, fun e => by cases e⟩
      cases e
      rw [if_neg (by simp; omega)]
      simp only [List.append_assoc]
      rw [List.take_append_of_le_length (by omega)]
    · simp only [ht, if_false, firstA]
      exact ⟨ih1, ih2⟩

theorem firstA_mem {rs : List RR} {r : RR} (h : firstA rs = some r) : r ∈ rs ∧ r.type = 1 := by
  induction rs with
  | nil => cases h
  | cons x xs ih =>
    simp only [firstA] at h
    split at h
    · cases h; rename_i ht; exact ⟨by simp, ht⟩
    · exact ⟨List.mem_cons_of_mem _ (ih h).1, (ih h).2⟩

/-- Data bytes collected so far. -/
def St.got : St → List UInt8
  | .data _ g => g
  | _ => []

/-- If the record announced at least four data bytes, the address lies inside the parsed bytes. -/
theorem analyze_inside (slack : List UInt8) (st : St) (l : List UInt8) (rd : Rd) (a : List UInt8)
    (h : analyze slack st l = .addr rd a) (h4 : 4 ≤ rd.len) :
    a.length = 4 ∧ rd.type = 1 ∧ a <:+: st.got ++ l := by
  fun_induction analyze slack st l
  case case1 => cases h
  case case8 => cases h
  case case9 rd' got b r hlen ht hl =>
    cases h
    refine ⟨by simp at hl ⊢; omega, ht, ?_⟩
    have e : got ++ [b] ++ r ++ slack = (got ++ [b]) ++ (r ++ slack) := by simp
    have e2 : (got ++ [b] ++ r ++ slack).take 4 = (got ++ [b]).take 4 := by
      rw [e, List.take_append_of_le_length (by simp; omega)]
    rw [e2]
    have e3 : (St.data rd got).got ++ b :: r = (got ++ [b]) ++ r := by simp [St.got]
    rw [e3]
    exact ((List.take_prefix _ _).trans (List.prefix_append _ _)).isInfix
  case case10 rd' got b r _ _ ih =>
    obtain ⟨i1, i2, i3⟩ := ih h
    refine ⟨i1, i2, ?_⟩
    simp only [St.got, List.nil_append] at i3 ⊢
    exact (i3.trans (List.suffix_cons _ _).isInfix).trans (List.suffix_append _ _).isInfix
  case case11 rd' got b r _ ih =>
    obtain ⟨i1, i2, i3⟩ := ih h
    refine ⟨i1, i2, ?_⟩
    simpa [St.got] using i3
  all_goals
    rename_i ih
    obtain ⟨i1, i2, i3⟩ := ih h
    refine ⟨i1, i2, ?_⟩
    simp only [St.got, List.nil_append] at i3 ⊢
    exact i3.trans (List.suffix_cons _ _).isInfix

/-- The table operations an event stands for. -/
def toOps : Ev → List (Op Key Rec)
  | .answer q now m1 m2 m3 buf slack =>
    match analyze slack .name (buf.drop (12 + qnameLen q + 4)) with
    | .addr rd a => if rd.ttl > 0 ∧ rd.len > 0 then [.put q ⟨now + ttlMsec rd.ttl, a⟩ m1 m2 m3] else []
    | _ => []
  | .chk now => [.purge fun r => decide (r.expire > now)]

theorem stepEv_ops {t t' : Cache} {e : Ev} (h : stepEv t e = some t') : EzHash.run fnv1a t (toOps e) = some t' := by
  cases e with
  | chk now => exact h
  | answer q now m1 m2 m3 buf slack =>
    simp only [stepEv, respond] at h
    simp only [toOps]
    cases ha : analyze slack .name (buf.drop (12 + qnameLen q + 4)) with
    | oob => simp [ha] at h
    | none => simp [ha] at h; subst h; rfl
    | addr rd a =>
      simp only [ha, cacheReq, recFind] at h
      dsimp only
      by_cases hc : rd.ttl > 0 ∧ rd.len > 0
      · rw [if_pos hc]
        cases hf : find fnv1a t q with
        | some r =>
          simp only [hf] at h
          cases h
          simp [run, step, add, hf]
        | none =>
          simp only [hf] at h
          rw [if_pos hc] at h
          simp only [run, step]
          cases hadd : add fnv1a t q ⟨now + ttlMsec rd.ttl, a⟩ m1 m2 m3 with
          | ok t1 => simp [hadd] at h ⊢; exact h
          | noMem => simp [hadd] at h ⊢; exact h
          | abort => simp [hadd] at h
      · rw [if_neg hc]
        cases hf : find fnv1a t q with
        | some r =>
          simp only [hf] at h
          cases h
          rfl
        | none =>
          simp only [hf] at h
          rw [if_neg hc] at h
          simp only at h
          cases h; rfl

theorem run_append {V : Type} (hf : Key → UInt32) (a b : List (Op Key V)) : ∀ {t t1 t2 : Tab V},
    run hf t a = some t1 → run hf t1 b = some t2 → run hf t (a ++ b) = some t2 := by
  induction a with
  | nil => intro t t1 t2 h1 h2; cases h1; exact h2
  | cons op r ih =>
    intro t t1 t2 h1 h2
    simp only [run, List.cons_append] at h1 ⊢
    split at h1
    · exact ih h1 h2
    · cases h1

theorem runEv_ops (es : List Ev) : ∀ {t t' : Cache}, runEv t es = some t' →
    EzHash.run fnv1a t (es.flatMap toOps) = some t' := by
  induction es with
  | nil => intro t t' h; exact h
  | cons e r ih =>
    intro t t' h
    simp only [runEv] at h
    split at h
    · rename_i t1 hs
      rw [List.flatMap_cons]
      exact run_append _ _ _ (stepEv_ops hs) (ih h)
    · cases h

theorem toOps_le (e : Ev) : (toOps e).length ≤ 1 := by
  cases e with
  | chk now => simp [toOps]
  | answer q now m1 m2 m3 buf slack =>
    simp only [toOps]
    split
    · split <;> simp
    · simp

theorem flatMap_split (es : List Ev) : ∀ (pre post : List (Op Key Rec)) (x : Op Key Rec),
    es.flatMap toOps = pre ++ x :: post →
    ∃ epre e epost, es = epre ++ e :: epost ∧ epre.flatMap toOps = pre ∧ toOps e = [x] ∧ epost.flatMap toOps = post := by
  induction es with
  | nil => intro pre post x h; simp at h
  | cons e r ih =>
    intro pre post x h
    rw [List.flatMap_cons] at h
    have hl := toOps_le e
    cases ho : toOps e with
    | nil =>
      rw [ho, List.nil_append] at h
      obtain ⟨ep, e', eq, rfl, h1, h2, h3⟩ := ih pre post x h
      exact ⟨e :: ep, e', eq, rfl, by simp [ho, h1], h2, h3⟩
    | cons o os =>
      rw [ho] at h hl
      simp only [List.length_cons] at hl
      have : os = [] := List.length_eq_zero_iff.mp (by omega)
      subst this
      cases pre with
      | nil =>
        simp only [List.cons_append, List.nil_append, List.cons.injEq] at h
        obtain ⟨rfl, h⟩ := h
        exact ⟨[], e, r, rfl, rfl, ho, h⟩
      | cons p ps =>
        simp only [List.cons_append, List.nil_append, List.cons.injEq] at h
        obtain ⟨rfl, h⟩ := h
        obtain ⟨ep, e', eq, rfl, h1, h2, h3⟩ := ih ps post x h
        exact ⟨e :: ep, e', eq, rfl, by simp [ho, h1], h2, h3⟩

theorem toOps_put {e : Ev} {q : Key} {rec : Rec} {m1 m2 m3 : Bool} (h : toOps e = [.put q rec m1 m2 m3]) :
    ∃ now buf slack rd, e = .answer q now m1 m2 m3 buf slack ∧
      analyze slack .name (buf.drop (12 + qnameLen q + 4)) = .addr rd rec.addr ∧ rd.ttl > 0 ∧ rd.len > 0 ∧
      rec.expire = now + ttlMsec rd.ttl := by
  cases e with
  | chk now => simp [toOps] at h
  | answer q' now n1 n2 n3 buf slack =>
    simp only [toOps] at h
    split at h
    · rename_i rd a ha
      split at h
      · rename_i hc
        simp only [List.cons.injEq, Op.put.injEq, and_true] at h
        obtain ⟨rfl, rfl, rfl, rfl, rfl⟩ := h
        exact ⟨now, buf, slack, rd, rfl, ha, hc.1, hc.2, rfl⟩
      · cases h
    · cases h

theorem cacheInit_uniq : Uniq cacheInit := create_uniq 279 (by decide)

/-- Lookup after a history of events, as the value of the table history. -/
theorem find_runEv {es : List Ev} {t : Cache} (h : runEv cacheInit es = some t) (q : Key) :
    find fnv1a t q = valueOf q none (es.flatMap toOps) := by
  have := (run_find _ cacheInit_uniq (runEv_ops es h)).2 q
  simpa [find, cacheInit, create, walk] using this

end Verif.Dns
