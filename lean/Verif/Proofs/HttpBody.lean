import Verif.Proofs.HttpReq
import Verif.Model.HttpBody
/-
Lemmas about absolute request lines, the character test and the announced body length.
-/
namespace Verif.Http

open HttpSpec

theorem pass_one {f : Req → Nat → UInt8 → Byte} {r r' : Req} {p : Nat} {b : UInt8} {l : List UInt8} (h : f r p b = .cont r') :
    pass f r p (b :: l) = pass f r' (p + 1) l := by rw [pass, h]

theorem ne_of_not_mem {b c : UInt8} {l : List UInt8} (hc : c ∉ l) (hb : b ∈ l) : b ≠ c := fun e => hc (e ▸ hb)

/-- State after the target has begun, for an absolute line. -/
def absReq (h : Absolute) (p : Nat) : Req :=
  { method := ⟨p, h.method.length⟩, scheme := ⟨p + h.method.length + 1, h.scheme.length⟩,
    host := ⟨p + h.method.length + h.scheme.length + 4, h.host.length⟩,
    port := match h.port with
      | none => {}
      | some q => ⟨p + h.method.length + h.scheme.length + h.host.length + 5, q.length⟩,
    uri := ⟨p + h.method.length + h.scheme.length + h.host.length + (portBytes h.port).length + 4, h.target.length⟩,
    ver := ⟨p + h.method.length + h.scheme.length + h.host.length + (portBytes h.port).length + h.target.length + 5, h.version.length⟩ }

theorem pass_method (m rest : List UInt8) (h1 : 1 ≤ m.length) (h16 : m.length ≤ 16) (ht : Text m) (hs : 32 ∉ m) (p : Nat) :
    pass lineByte {} p (m ++ 32 :: rest) = pass lineByte { method := ⟨p, m.length⟩, ls := .schemeInit } (p + m.length + 1) rest := by
  cases m with
  | nil => simp at h1
  | cons m0 m =>
    have b0 := not_bad (ht m0 (by simp))
    have s0 : m0 ≠ 32 := fun e => hs (by simp [e])
    rw [List.cons_append, pass_one (r' := { method := ⟨p, 0⟩, ls := .method }) (by
      simp [lineByte, b0.1, b0.2.1, b0.2.2, s0])]
    rw [pass_skip _ _ _ _ _ (fun b hb q => by
      have hb' := not_bad (ht b (List.mem_cons_of_mem _ hb))
      have hs : b ≠ 32 := fun e => hs (by rw [← e]; exact List.mem_cons_of_mem _ hb)
      simp [lineByte, hb'.1, hs])]
    rw [pass_one (r' := { method := ⟨p, (m.length + 1 : Nat)⟩, ls := .schemeInit })]
    · congr 1
      simp only [List.length_cons]; omega
    · simp only [List.length_cons] at h16
      have hlen : ¬ ((((p + 1 + m.length : Nat) : Int) - (p : Int)) < 1 ∨ (((p + 1 + m.length : Nat) : Int) - (p : Int)) > 16) := by omega
      simp only [lineByte, show bad 32 = false by decide, upto, hlen, if_false, if_true, Bool.false_eq_true]
      congr 3
      push_cast; omega

theorem pass_target (r : Req) (t v rest : List UInt8) (htt : Text t) (hts : 32 ∉ t) (hv : v ≠ []) (hvt : Text v) (p : Nat) (hr : r.ls = .uri)
    (hu : r.uri = ⟨p, 0⟩) (hver : r.ver = {}) :
    pass lineByte r (p + 1) (t ++ (32 :: (v ++ (13 :: 10 :: rest)))) =
      .done { r with uri := ⟨p, (t.length + 1 : Nat)⟩, ver := ⟨p + t.length + 2, v.length⟩, ls := .methodInit } (p + t.length + v.length + 4) := by
  cases v with
  | nil => exact absurd rfl hv
  | cons v0 v =>
    rw [pass_skip _ _ _ _ _ (fun b hb q => by
      have hb' := not_bad (htt b hb)
      have hs : b ≠ 32 := fun e => hts (by rw [← e]; exact hb)
      simp [lineByte, hb'.1, hr, hs])]
    rw [pass_one (r' := { r with uri := ⟨p, (t.length + 1 : Nat)⟩, ls := .verInit })]
    · have c0 := not_bad (hvt v0 (by simp))
      rw [List.cons_append, pass_one (r' := { r with uri := ⟨p, (t.length + 1 : Nat)⟩, ver := ⟨p + t.length + 2, 0⟩, ls := .ver })]
      · rw [pass_skip _ _ _ _ _ (fun b hb q => by
          have hb' := not_bad (hvt b (List.mem_cons_of_mem _ hb))
          simp [lineByte, hb'.1, hb'.2.1])]
        rw [pass_one (r' := { r with uri := ⟨p, (t.length + 1 : Nat)⟩, ver := ⟨p + t.length + 2, (v.length + 1 : Nat)⟩, ls := .fin })]
        · rw [pass]
          simp only [lineByte, show bad 10 = false by decide, if_false, if_true, Bool.false_eq_true]
          congr 1
          simp only [List.length_cons]; omega
        · simp only [lineByte, show bad 13 = false by decide, upto, if_false, if_true, Bool.false_eq_true]
          congr 3
          push_cast; omega
      · simp only [lineByte, c0.1, hver, if_false, Bool.false_eq_true]
        congr 3
        omega
    · simp only [lineByte, hr, hu, show bad 32 = false by decide, upto, if_false, if_true, Bool.false_eq_true]
      congr 3
      push_cast; omega

theorem pass_abs (h : Absolute) (ok : h.Ok) (rest : List UInt8) (p : Nat) :
    pass lineByte {} p (h.line ++ rest) = .done (absReq h p) (p + h.line.length) := by
  obtain ⟨⟨hm1, hm2, hmt, hms⟩, ⟨hs1, hst, hsc, hss, hs32⟩, ⟨hh1, hht, hhc, hhs, hh32⟩, hport, ⟨t, ht, htt, hts⟩, ⟨hv1, hvt⟩⟩ := ok
  obtain ⟨method, scheme, host, port, target, version⟩ := h
  dsimp only at *
  subst ht
  simp only [Absolute.line, List.append_assoc, List.cons_append, List.nil_append]
  rw [pass_method _ _ hm1 hm2 hmt hms]
  obtain ⟨s0, s, rfl⟩ : ∃ a b, scheme = a :: b := by
    cases scheme with
    | nil => exact absurd rfl hs1
    | cons a b => exact ⟨a, b, rfl⟩
  obtain ⟨h0, h', rfl⟩ : ∃ a b, host = a :: b := by
    cases host with
    | nil => exact absurd rfl hh1
    | cons a b => exact ⟨a, b, rfl⟩
  -- scheme
  have b0 := not_bad (hst s0 (by simp))
  have n1 := ne_of_not_mem hs32 (List.mem_cons_self (a := s0) (l := s))
  have n2 := ne_of_not_mem hss (List.mem_cons_self (a := s0) (l := s))
  rw [List.cons_append, pass_one (r' := { method := ⟨p, method.length⟩, scheme := ⟨p + method.length + 1, 0⟩, ls := .scheme })]
  rotate_left
  · simp [lineByte, b0.1, n1, n2]
  rw [pass_skip _ _ _ _ _ (fun b hb q => by
    have hb' := not_bad (hst b (List.mem_cons_of_mem _ hb))
    have hs := ne_of_not_mem hsc (List.mem_cons_of_mem _ hb)
    simp [lineByte, hb'.1, hs])]
  rw [pass_one (r' := { method := ⟨p, method.length⟩, scheme := ⟨p + method.length + 1, (s.length + 1 : Nat)⟩, ls := .slash })]
  rotate_left
  · simp only [lineByte, show bad 58 = false by decide, upto, if_false, if_true, Bool.false_eq_true]
    congr 3
    push_cast; omega
  rw [pass_one (r' := { method := ⟨p, method.length⟩, scheme := ⟨p + method.length + 1, (s.length + 1 : Nat)⟩, ls := .slash2 })]
  rotate_left
  · simp [lineByte, show bad 47 = false by decide]
  rw [pass_one (r' := { method := ⟨p, method.length⟩, scheme := ⟨p + method.length + 1, (s.length + 1 : Nat)⟩, ls := .hostInit })]
  rotate_left
  · simp [lineByte, show bad 47 = false by decide]
  -- host
  have c0 := not_bad (hht h0 (by simp))
  rw [List.cons_append, pass_one (r' := { method := ⟨p, method.length⟩, scheme := ⟨p + method.length + 1, (s.length + 1 : Nat)⟩,
                                          host := ⟨p + method.length + (s.length + 1) + 4, 0⟩, ls := .host })]
  rotate_left
  · simp only [lineByte, c0.1, if_false, Bool.false_eq_true]
    congr 3
    omega
  rw [pass_skip _ _ _ _ _ (fun b hb q => by
    have hb' := not_bad (hht b (List.mem_cons_of_mem _ hb))
    have e1 := ne_of_not_mem hhc (List.mem_cons_of_mem _ hb)
    have e2 := ne_of_not_mem hhs (List.mem_cons_of_mem _ hb)
    simp [lineByte, hb'.1, e1, e2])]
  cases port with
  | none =>
    simp only [portBytes, List.nil_append]
    rw [pass_one (r' := { method := ⟨p, method.length⟩, scheme := ⟨p + method.length + 1, (s.length + 1 : Nat)⟩,
                          host := ⟨p + method.length + (s.length + 1) + 4, (h'.length + 1 : Nat)⟩,
                          uri := ⟨p + method.length + (s.length + 1) + (h'.length + 1) + 4, 0⟩, ls := .uri })]
    rotate_left
    · simp only [lineByte, show bad 47 = false by decide, upto, if_false, if_true, Bool.false_eq_true, show ¬ ((47 : UInt8) = 58) by decide]
      congr 3
      · push_cast; omega
      · omega
    rw [show p + method.length + 1 + 1 + s.length + 1 + 1 + 1 + 1 + h'.length + 1 =
      p + method.length + (s.length + 1) + (h'.length + 1) + 4 + 1 by omega]
    rw [pass_target _ t version rest htt hts hv1 hvt _ rfl rfl rfl]
    simp only [absReq, portBytes, List.length_cons, List.length_append, List.length_nil]
    congr 1
    · congr 1
      congr 1; omega
    · omega
  | some q =>
    obtain ⟨hq1, hqt, hqs, hq32⟩ := hport q rfl
    obtain ⟨q0, q, rfl⟩ : ∃ a b, q = a :: b := by
      cases q with
      | nil => exact absurd rfl hq1
      | cons a b => exact ⟨a, b, rfl⟩
    simp only [portBytes, List.cons_append]
    rw [pass_one (r' := { method := ⟨p, method.length⟩, scheme := ⟨p + method.length + 1, (s.length + 1 : Nat)⟩,
                          host := ⟨p + method.length + (s.length + 1) + 4, (h'.length + 1 : Nat)⟩, ls := .portInit })]
    rotate_left
    · simp only [lineByte, show bad 58 = false by decide, upto, if_false, if_true, Bool.false_eq_true]
      congr 3
      push_cast; omega
    have d0 := not_bad (hqt q0 (by simp))
    rw [pass_one (r' := { method := ⟨p, method.length⟩, scheme := ⟨p + method.length + 1, (s.length + 1 : Nat)⟩,
                          host := ⟨p + method.length + (s.length + 1) + 4, (h'.length + 1 : Nat)⟩,
                          port := ⟨p + method.length + (s.length + 1) + (h'.length + 1) + 5, 0⟩, ls := .port })]
    rotate_left
    · simp only [lineByte, d0.1, if_false, Bool.false_eq_true]
      congr 3
      omega
    rw [pass_skip _ _ _ _ _ (fun b hb q => by
      have hb' := not_bad (hqt b (List.mem_cons_of_mem _ hb))
      have e2 := ne_of_not_mem hqs (List.mem_cons_of_mem _ hb)
      simp [lineByte, hb'.1, e2])]
    rw [pass_one (r' := { method := ⟨p, method.length⟩, scheme := ⟨p + method.length + 1, (s.length + 1 : Nat)⟩,
                          host := ⟨p + method.length + (s.length + 1) + 4, (h'.length + 1 : Nat)⟩,
                          port := ⟨p + method.length + (s.length + 1) + (h'.length + 1) + 5, (q.length + 1 : Nat)⟩,
                          uri := ⟨p + method.length + (s.length + 1) + (h'.length + 1) + (q.length + 2) + 4, 0⟩, ls := .uri })]
    rotate_left
    · simp only [lineByte, show bad 47 = false by decide, upto, if_false, if_true, Bool.false_eq_true]
      congr 3
      · push_cast; omega
      · omega
    rw [show p + method.length + 1 + 1 + s.length + 1 + 1 + 1 + 1 + h'.length + 1 + 1 + q.length + 1 =
      p + method.length + (s.length + 1) + (h'.length + 1) + (q.length + 2) + 4 + 1 by omega]
    rw [pass_target _ t version rest htt hts hv1 hvt _ rfl rfl rfl]
    simp only [absReq, portBytes, List.length_cons, List.length_append, List.length_nil]
    congr 1
    · congr 1
      congr 1; omega
    · omega

/-! ### Names -/

theorem lower_nat (b : UInt8) : (lower b).toNat = if 65 ≤ b.toNat ∧ b.toNat ≤ 90 then b.toNat + 32 else b.toNat := by
  have h1 : (65 : UInt8) ≤ b ↔ 65 ≤ b.toNat := UInt8.le_iff_toNat_le
  have h2 : b ≤ (90 : UInt8) ↔ b.toNat ≤ 90 := UInt8.le_iff_toNat_le
  unfold lower
  simp only [h1, h2]
  split
  · rw [UInt8.toNat_add]
    have : (32 : UInt8).toNat = 32 := rfl
    omega
  · rfl

theorem ncaseEq_iff : ∀ a b : List UInt8, ncaseEq a b = true ↔ SameName a b ∨ Abbreviates a b := by
  have key : ∀ a b : List UInt8, ncaseEq a b = true ↔ ∃ p, p <+: b ∧ SameName a p := by
    intro a
    induction a with
    | nil => intro b; simp only [ncaseEq, true_iff]; exact ⟨[], List.nil_prefix, rfl⟩
    | cons x a ih =>
      intro b
      cases b with
      | nil =>
        simp only [ncaseEq, Bool.false_eq_true, false_iff]
        rintro ⟨p, hp, hs⟩
        have := List.prefix_nil.mp hp
        subst this
        simp [SameName] at hs
      | cons y b =>
        simp only [ncaseEq, Bool.and_eq_true, decide_eq_true_eq]
        have hxy : lower x = lower y ↔ (lower x).toNat = (lower y).toNat := UInt8.toNat_inj.symm
        rw [hxy, lower_nat, lower_nat, ih b]
        constructor
        · rintro ⟨h, p, hp, hs⟩
          refine ⟨y :: p, List.cons_prefix_cons.mpr ⟨rfl, hp⟩, ?_⟩
          simp only [SameName, List.map_cons, List.cons.injEq] at hs ⊢
          exact ⟨h, hs⟩
        · rintro ⟨p, hp, hs⟩
          cases p with
          | nil => simp [SameName] at hs
          | cons z p =>
            obtain ⟨rfl, hp'⟩ := List.cons_prefix_cons.mp hp
            simp only [SameName, List.map_cons, List.cons.injEq] at hs
            exact ⟨hs.1, p, hp', hs.2⟩
  intro a b
  rw [key]
  constructor
  · rintro ⟨p, hp, hs⟩
    by_cases e : p = b
    · subst e; exact Or.inl hs
    · exact Or.inr ⟨p, hp, e, hs⟩
  · rintro (h | ⟨p, hp, -, hs⟩)
    · exact ⟨b, List.prefix_refl b, h⟩
    · exact ⟨p, hp, hs⟩

/-! ### Numbers -/

theorem decVal_go (l : List UInt8) : ∀ n, l.foldl (fun n b => n * 10 + (b.toNat - 48)) n = n * 10 ^ l.length + decimal l := by
  induction l with
  | nil => intro n; simp [decimal]
  | cons b l ih =>
    intro n
    simp only [List.foldl_cons, ih, decimal, List.length_cons, Nat.pow_succ, Nat.add_mul]
    rw [Nat.mul_assoc, Nat.mul_comm 10]
    omega

theorem decVal_eq (l : List UInt8) : decVal l = decimal l := by
  unfold decVal; rw [decVal_go]; simp

theorem isDigit_iff (b : UInt8) : isDigit b = true ↔ 48 ≤ b.toNat ∧ b.toNat ≤ 57 := by
  have h1 : (48 : UInt8) ≤ b ↔ 48 ≤ b.toNat := UInt8.le_iff_toNat_le
  have h2 : b ≤ (57 : UInt8) ↔ b.toNat ≤ 57 := UInt8.le_iff_toNat_le
  unfold isDigit
  rw [Bool.and_eq_true, decide_eq_true_eq, decide_eq_true_eq, h1, h2]

theorem isSpace_digit {b : UInt8} (h : 48 ≤ b.toNat ∧ b.toNat ≤ 57) : isSpace b = false := by
  have h2 : b ≤ (13 : UInt8) ↔ b.toNat ≤ 13 := UInt8.le_iff_toNat_le
  have : ¬ b = 32 := by rintro rfl; simp at h
  have h3 : ¬ b ≤ 13 := by rw [h2]; omega
  simp [isSpace, this, h3]

theorem takeWhile_digits (d more : List UInt8) (hd : ∀ b ∈ d, 48 ≤ b.toNat ∧ b.toNat ≤ 57)
    (hm : ∀ c, more.head? = some c → ¬ (48 ≤ c.toNat ∧ c.toNat ≤ 57)) : (d ++ more).takeWhile isDigit = d := by
  induction d with
  | nil =>
    cases more with
    | nil => rfl
    | cons c more =>
      have := hm c rfl
      rw [← isDigit_iff] at this
      simp [this]
  | cons b d ih =>
    have hb := (isDigit_iff b).mpr (hd b (by simp))
    simp [hb, ih (fun x hx => hd x (List.mem_cons_of_mem _ hx))]

/-- Digits up to something else are read as the number they denote, within the range of `long`. -/
theorem strtol_digits (d more : List UInt8) (hd : Digits d)
    (hm : ∀ c, more.head? = some c → ¬ (48 ≤ c.toNat ∧ c.toNat ≤ 57)) :
    strtol (d ++ more) = min (decimal d : Int) 9223372036854775807 := by
  obtain ⟨hne, hd⟩ := hd
  cases d with
  | nil => exact absurd rfl hne
  | cons b d =>
    have hb := hd b (by simp)
    have n1 : ¬ b = 45 := by rintro rfl; simp at hb
    have n2 : ¬ b = 43 := by rintro rfl; simp at hb
    have e : ((b :: d) ++ more).dropWhile isSpace = b :: (d ++ more) := by simp [isSpace_digit hb]
    unfold strtol
    rw [e]
    simp only [n1, n2, if_false]
    rw [← List.cons_append, takeWhile_digits _ _ hd hm, decVal_eq]

/-- A minus sign and digits. -/
theorem strtol_minus (d more : List UInt8) (hd : Digits d)
    (hm : ∀ c, more.head? = some c → ¬ (48 ≤ c.toNat ∧ c.toNat ≤ 57)) :
    strtol (45 :: (d ++ more)) = max (-(decimal d : Int)) (-9223372036854775808) := by
  have e : (45 :: (d ++ more)).dropWhile isSpace = 45 :: (d ++ more) := by
    rw [List.dropWhile_cons_of_neg]; decide
  unfold strtol
  rw [e]
  dsimp only
  rw [if_pos rfl, takeWhile_digits _ _ hd.2 hm, decVal_eq]

theorem toInt_small {n : Nat} (h : n < 2147483648) : toInt (n : Int) = n := by unfold toInt; omega

theorem toInt_wrap {k m : Nat} (h : m < 2147483648) : toInt ((k * 4294967296 + m : Nat) : Int) = m := by
  unfold toInt; omega

/-! ### Lengths -/

theorem bodyLen_skip (l r : List (List UInt8 × List UInt8)) (h : ∀ kv ∈ l, ncaseEq kv.1 sClen = false) :
    ∀ n, bodyLen n (l ++ r) = bodyLen n r := by
  induction l with
  | nil => intro n; rfl
  | cons kv l ih =>
    intro n
    obtain ⟨k, v⟩ := kv
    have h0 := h (k, v) (by simp)
    simp only [List.cons_append, bodyLen]
    rw [h0]
    simp only [Bool.false_eq_true, if_false]
    exact ih (fun x hx => h x (List.mem_cons_of_mem _ hx)) n

theorem bodyLen_one (l r : List (List UInt8 × List UInt8)) (k v : List UInt8) (hl : ∀ kv ∈ l, ncaseEq kv.1 sClen = false)
    (hr : ∀ kv ∈ r, ncaseEq kv.1 sClen = false) (hk : ncaseEq k sClen = true) (n : Nat) (hv : toInt (strtol v) = n)
    (hn : n ≤ 10485760) (n0 : Int) : bodyLen n0 (l ++ (k, v) :: r) = some n := by
  rw [bodyLen_skip l _ hl]
  simp only [bodyLen, hk, if_true, hv, maxBody]
  rw [if_neg (by omega), if_neg (by omega)]
  have := bodyLen_skip r [] hr n
  rw [List.append_nil] at this
  rw [this]
  simp [bodyLen]

theorem bodyLen_refused (l r : List (List UInt8 × List UInt8)) (k v : List UInt8)
    (hl : ∀ kv ∈ l, ncaseEq kv.1 sClen = false) (hk : ncaseEq k sClen = true)
    (hv : toInt (strtol v) < 0 ∨ 10485760 < toInt (strtol v)) (n0 : Int) : bodyLen n0 (l ++ (k, v) :: r) = none := by
  rw [bodyLen_skip l _ hl]
  simp only [bodyLen, hk, if_true, maxBody]
  rcases hv with h | h
  · rw [if_pos h]
  · have h1 : ¬ toInt (strtol v) < 0 := by omega
    have h2 : toInt (strtol v) > 10485760 := by omega
    simp [h1, h2]

/-- The head of `c31_one_piece_partial` with what the search for the length looks at. -/
theorem head_tails (h : Head) (ok : h.Ok) (extra : List UInt8) (hl : (h.bytes ++ extra).length ≤ bufn)
    (b : UInt8) (bs : List UInt8) (hb : h.bytes ++ extra = b :: bs) (n : Nat) (rx : List Rx) :
    ∃ r, head (n + 1) {} [] 0 (.data b bs :: rx) = .done r (h.bytes ++ extra) h.bytes.length rx ∧
      fields (h.bytes ++ extra) r = h.fields.map (fun f => (f.name, f.value)) ∧
      ∃ more : Nat → List UInt8, tails (h.bytes ++ extra) r =
        h.fields.zipIdx.map fun f => (f.1.name, f.1.value ++ 13 :: more f.2) := by
  have e1 : h.bytes ++ extra = h.line ++ (fieldBytes h.fields ++ ([13, 10] ++ extra)) := by
    simp [Head.bytes, List.append_assoc]
  have P1 := pass_line h ok (fieldBytes h.fields ++ ([13, 10] ++ extra)) 0
  rw [← e1] at P1
  have L1 := loop_recv lineByte n {} (h.bytes ++ extra) rx b bs hb hl P1
  obtain ⟨-, ⟨t, ht, -, -⟩, -, hfl, hfo⟩ := ok
  obtain ⟨r', q1, q2, -, q4, -, q6⟩ := pass_fields h.fields
    { method := ⟨0, h.method.length⟩, uri := ⟨0 + h.method.length + 1, h.target.length⟩,
      ver := ⟨0 + h.method.length + 1 + h.target.length + 1, h.version.length⟩ } h.line extra hfo rfl (by simpa using hfl)
  simp only [Nat.zero_add] at q2 q4 q6
  refine ⟨r', ?_, ?_, ?_⟩
  · simp only [head]
    rw [L1]
    simp only [Nat.zero_add]
    rw [loop_scan _ _ _ _ _ _ (by rw [e1]; simp; omega)]
    rw [show (h.bytes ++ extra).drop h.line.length = fieldBytes h.fields ++ ([13, 10] ++ extra) by rw [e1]; simp]
    simp only [Nat.zero_add] at q1
    rw [q1]
    simp only
    congr 1
    simp [Head.bytes]; omega
  · simp only [fields, q2]
    apply List.ext_getElem
    · simp
    · intro i h1 h2
      simp only [List.length_map, List.length_range] at h1
      simp only [List.getElem_map, List.getElem_range]
      have := q4 i h1
      rw [e1, this.1, this.2]
  · have hg : ∃ g : Nat → List UInt8, ∀ i (hi : i < h.fields.length),
        (h.line ++ (fieldBytes h.fields ++ ([13, 10] ++ extra))).drop (r'.kvs i).2.data = (h.fields[i]'hi).value ++ 13 :: g i := by
      refine ⟨fun i => if hi : i < h.fields.length then Classical.choose (q6 i hi) else [], fun i hi => ?_⟩
      dsimp only
      rw [dif_pos hi]
      exact Classical.choose_spec (q6 i hi)
    obtain ⟨g, hg⟩ := hg
    refine ⟨g, ?_⟩
    simp only [tails, q2]
    apply List.ext_getElem
    · simp
    · intro i h1 h2
      simp only [List.length_map, List.length_range] at h1
      simp only [List.getElem_map, List.getElem_range, List.getElem_zipIdx, Nat.zero_add]
      rw [e1, (q4 i h1).1, hg i h1]

end Verif.Http
