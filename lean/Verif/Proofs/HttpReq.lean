import Verif.Model.HttpReq
import Verif.Spec.HttpReq
/-
Lemmas about the HTTP request parser.
-/
namespace Verif.Http

open HttpSpec

theorem pass_skip (f : Req → Nat → UInt8 → Byte) (r : Req) (l rest : List UInt8) :
    ∀ p, (∀ b ∈ l, ∀ q, f r q b = .cont r) → pass f r p (l ++ rest) = pass f r (p + l.length) rest := by
  induction l with
  | nil => intro p _; rfl
  | cons b l ih =>
    intro p h
    simp only [List.cons_append, pass, h b (by simp) p]
    rw [ih (p + 1) (fun x hx => h x (List.mem_cons_of_mem _ hx))]
    simp [Nat.add_comm, Nat.add_left_comm]

theorem not_bad {b : UInt8} (h : 32 ≤ b.toNat ∧ b.toNat ≤ 127) : bad b = false ∧ b ≠ 13 ∧ b ≠ 10 := by
  have h1 : ¬ b < 32 := by
    intro hc
    have : b.toNat < 32 := hc
    omega
  have h2 : ¬ b > 127 := by
    intro hc
    have : 127 < b.toNat := hc
    omega
  refine ⟨by simp [bad, h1, h2], ?_, ?_⟩ <;> (rintro rfl; simp at h)

theorem sub_mid (pre x post : List UInt8) (n : Int) (h : n = x.length) : sub (pre ++ (x ++ post)) ⟨pre.length, n⟩ = x := by
  subst h
  simp [sub]

theorem pass_line (h : Head) (ok : h.Ok) (rest : List UInt8) (p : Nat) :
    pass lineByte {} p (h.line ++ rest) =
      .done { method := ⟨p, h.method.length⟩, uri := ⟨p + h.method.length + 1, h.target.length⟩,
              ver := ⟨p + h.method.length + 1 + h.target.length + 1, h.version.length⟩ } (p + h.line.length) := by
  obtain ⟨⟨hm1, hm2, hmt, hms⟩, ⟨t, ht, htt, hts⟩, ⟨hv1, hvt⟩, -, -⟩ := ok
  obtain ⟨m0, m, hm⟩ : ∃ m0 m, h.method = m0 :: m := by
    cases hh : h.method with
    | nil => rw [hh] at hm1; simp at hm1
    | cons a b => exact ⟨a, b, rfl⟩
  obtain ⟨v0, v, hv⟩ : ∃ v0 v, h.version = v0 :: v := by
    cases hh : h.version with
    | nil => exact absurd hh hv1
    | cons a b => exact ⟨a, b, rfl⟩
  rw [hm] at hmt hms hm2 hm1
  rw [hv] at hvt
  simp only [Head.line, hm, hv, ht, List.cons_append, List.append_assoc, List.length_cons, List.length_append,
    List.nil_append, List.length_nil]
  -- method
  have b0 := not_bad (hmt m0 (by simp))
  have s0 : m0 ≠ 32 := fun e => hms (by simp [e])
  rw [pass]
  simp only [lineByte, b0.1, b0.2.1, b0.2.2, s0, or_self, if_false, Bool.false_eq_true]
  rw [pass_skip]
  rotate_left
  · intro b hb q
    have hb' := not_bad (hmt b (List.mem_cons_of_mem _ hb))
    have hs : b ≠ 32 := fun e => hms (by rw [← e]; exact List.mem_cons_of_mem _ hb)
    simp [lineByte, hb'.1, hs]
  rw [pass]
  have hb32 : bad 32 = false := by decide
  have hlen : ¬ ((((p + 1 + m.length : Nat) : Int) - (p : Int)) < 1 ∨ (((p + 1 + m.length : Nat) : Int) - (p : Int)) > 16) := by
    simp only [List.length_cons] at hm2
    omega
  simp only [lineByte, hb32, upto, hlen, if_false, if_true, Bool.false_eq_true]
  -- target
  rw [pass]
  have hb47 : bad 47 = false := by decide
  simp only [lineByte, hb47, if_false, if_true, Bool.false_eq_true, show ¬ ((47 : UInt8) = 32) by decide]
  rw [pass_skip]
  rotate_left
  · intro b hb q
    have hb' := not_bad (htt b hb)
    have hs : b ≠ 32 := fun e => hts (by rw [← e]; exact hb)
    simp [lineByte, hb'.1, hs]
  rw [pass]
  simp only [lineByte, hb32, upto, if_false, if_true, Bool.false_eq_true]
  -- version
  have c0 := not_bad (hvt v0 (by simp))
  rw [pass]
  simp only [lineByte, c0.1, if_false, Bool.false_eq_true]
  rw [pass_skip]
  rotate_left
  · intro b hb q
    have hb' := not_bad (hvt b (List.mem_cons_of_mem _ hb))
    simp [lineByte, hb'.1, hb'.2.1]
  have hb13 : bad 13 = false := by decide
  have hb10 : bad 10 = false := by decide
  rw [pass]
  simp only [lineByte, hb13, upto, if_false, if_true, Bool.false_eq_true]
  rw [pass]
  simp only [lineByte, hb10, if_false, if_true, Bool.false_eq_true]
  congr 1
  · congr 1
    · congr 1; push_cast; omega
    · congr 1
      · omega
      · push_cast; omega
    · congr 1
      · omega
      · push_cast; omega
  · omega

/-- State after one header field. -/
def after (r : Req) (p : Nat) (f : Field) : Req :=
  { r with
    kvs := fun i => if i = r.kvn then
      (⟨p, f.name.length⟩, ⟨p + f.name.length + 1 + f.sp, f.value.length⟩) else r.kvs i
    kvn := r.kvn + 1
    hs := .keyInit }

theorem pass_field (f : Field) (ok : f.Ok) (r : Req) (hr : r.hs = .keyInit) (hk : r.kvn + 1 ≤ 15) (rest : List UInt8) (p : Nat) :
    pass hdrByte r p (f.bytes ++ rest) = pass hdrByte (after r p f) (p + f.bytes.length) rest := by
  obtain ⟨hn, hnt, hnc, hv, hvt, hvs⟩ := ok
  obtain ⟨m0, m, hm⟩ : ∃ m0 m, f.name = m0 :: m := by
    cases hh : f.name with
    | nil => exact absurd hh hn
    | cons a b => exact ⟨a, b, rfl⟩
  obtain ⟨v0, v, hv'⟩ : ∃ v0 v, f.value = v0 :: v := by
    cases hh : f.value with
    | nil => exact absurd hh hv
    | cons a b => exact ⟨a, b, rfl⟩
  rw [hm] at hnt hnc
  rw [hv'] at hvt hvs
  simp only [Field.bytes, after, hm, hv', List.cons_append, List.append_assoc, List.length_cons, List.length_append,
    List.nil_append, List.length_nil, List.length_replicate]
  have b0 := not_bad (hnt m0 (by simp))
  have hb13 : bad 13 = false := by decide
  have hb10 : bad 10 = false := by decide
  have hb32 : bad 32 = false := by decide
  have hb58 : bad 58 = false := by decide
  rw [pass]
  simp only [hdrByte, hr, b0.1, b0.2.1, if_false, Bool.false_eq_true]
  rw [pass_skip]
  rotate_left
  · intro b hb q
    have hb' := not_bad (hnt b (List.mem_cons_of_mem _ hb))
    have hs : b ≠ 58 := fun e => hnc (by rw [← e]; exact List.mem_cons_of_mem _ hb)
    simp [hdrByte, hb'.1, hs]
  rw [pass]
  simp only [hdrByte, hb58, if_false, if_true, Bool.false_eq_true]
  rw [pass_skip]
  rotate_left
  · intro b hb q
    have : b = 32 := List.eq_of_mem_replicate hb
    subst this
    simp [hdrByte, hb32]
  have c0 := not_bad (hvt v0 (by simp))
  have s0 : v0 ≠ 32 := by
    intro e; apply hvs; simp [e]
  rw [pass]
  simp only [hdrByte, c0.1, s0, if_false, Bool.false_eq_true]
  rw [pass_skip]
  rotate_left
  · intro b hb q
    have hb' := not_bad (hvt b (List.mem_cons_of_mem _ hb))
    simp [hdrByte, hb'.1, hb'.2.1]
  rw [pass]
  simp only [hdrByte, hb13, if_false, if_true, Bool.false_eq_true]
  rw [pass]
  simp only [hdrByte, hb10, if_false, if_true, Bool.false_eq_true]
  have e : min (r.kvn + 1) (kvMax - 1) = r.kvn + 1 := by simp only [kvMax]; omega
  simp only [Req.setKv, upto, e, if_true, List.length_replicate]
  congr 1
  · congr 1
    funext i
    by_cases hi : i = r.kvn
    · simp only [hi, if_true]
      congr 1
      · congr 1; push_cast; omega
      · congr 1
        · omega
        · push_cast; omega
    · simp only [hi, if_false]
  · omega

/-- What a complete scan of the header fields yields, read back from the buffer. -/
theorem pass_fields (fs : List Field) : ∀ (r : Req) (pre post : List UInt8), (∀ f ∈ fs, f.Ok) → r.hs = .keyInit →
    r.kvn + fs.length ≤ 15 →
    ∃ r', pass hdrByte r pre.length (fieldBytes fs ++ ([13, 10] ++ post)) = .done r' (pre.length + (fieldBytes fs).length + 2) ∧
      r'.kvn = r.kvn + fs.length ∧ (∀ i, i < r.kvn → r'.kvs i = r.kvs i) ∧
      (∀ i (hi : i < fs.length),
        sub (pre ++ (fieldBytes fs ++ ([13, 10] ++ post))) (r'.kvs (r.kvn + i)).1 = (fs[i]'hi).name ∧
        sub (pre ++ (fieldBytes fs ++ ([13, 10] ++ post))) (r'.kvs (r.kvn + i)).2 = (fs[i]'hi).value) ∧
      (r'.method = r.method ∧ r'.uri = r.uri ∧ r'.ver = r.ver ∧ r'.scheme = r.scheme ∧ r'.host = r.host ∧ r'.port = r.port) ∧
      ∀ i (hi : i < fs.length), ∃ more,
        (pre ++ (fieldBytes fs ++ ([13, 10] ++ post))).drop (r'.kvs (r.kvn + i)).2.data = (fs[i]'hi).value ++ 13 :: more := by
  induction fs with
  | nil =>
    intro r pre post _ hr hk
    refine ⟨{ r with hs := .done }, ?_, ?_, ?_, ?_, ⟨rfl, rfl, rfl, rfl, rfl, rfl⟩, ?_⟩
    · simp only [fieldBytes, List.nil_append, List.cons_append]
      rw [pass]
      simp only [hdrByte, hr, show bad 13 = false by decide, if_true, if_false, Bool.false_eq_true]
      rw [pass]
      simp [hdrByte, show bad 10 = false by decide]
    · simp
    · intro i _; rfl
    · intro i hi; simp at hi
    · intro i hi; simp at hi
  | cons f fs ih =>
    intro r pre post hok hr hk
    simp only [List.length_cons] at hk
    have hf := hok f (by simp)
    have hfs := fun x hx => hok x (List.mem_cons_of_mem _ hx)
    obtain ⟨r', h1, h2, h3, h4, h5, h6⟩ := ih (after r pre.length f) (pre ++ f.bytes) post hfs rfl (by simp [after]; omega)
    refine ⟨r', ?_, ?_, ?_, ?_, ?_, ?_⟩
    · simp only [fieldBytes, List.append_assoc]
      rw [pass_field f hf r hr (by omega)]
      rw [← List.length_append, h1]
      congr 1
      simp only [List.length_append]; omega
    · rw [h2]; simp [after]; omega
    · intro i hi
      rw [h3 i (by simp [after]; omega)]
      have : ¬ i = r.kvn := by omega
      simp [after, this]
    · intro i hi
      have e : pre ++ (fieldBytes (f :: fs) ++ ([13, 10] ++ post)) = (pre ++ f.bytes) ++ (fieldBytes fs ++ ([13, 10] ++ post)) := by
        simp [fieldBytes, List.append_assoc]
      rw [e]
      cases i with
      | zero =>
        rw [Nat.add_zero, h3 r.kvn (by simp [after])]
        simp only [after, if_true, List.getElem_cons_zero]
        constructor
        · have := sub_mid pre f.name ((58 :: (List.replicate f.sp 32 ++ (f.value ++ [13, 10]))) ++ (fieldBytes fs ++ ([13, 10] ++ post)))
            f.name.length rfl
          refine Eq.trans ?_ this
          congr 1
          simp [Field.bytes, List.append_assoc]
        · have := sub_mid (pre ++ f.name ++ [58] ++ List.replicate f.sp 32) f.value
            ([13, 10] ++ (fieldBytes fs ++ ([13, 10] ++ post))) f.value.length rfl
          refine Eq.trans ?_ this
          congr 1
          · simp [Field.bytes, List.append_assoc]
          · simp only [List.length_append, List.length_cons, List.length_nil, List.length_replicate]
      | succ i =>
        have := h4 i (by simp at hi; omega)
        rw [show (after r pre.length f).kvn + i = r.kvn + (i + 1) by simp [after]; omega] at this
        simpa using this
    · exact h5
    · intro i hi
      have e : pre ++ (fieldBytes (f :: fs) ++ ([13, 10] ++ post)) = (pre ++ f.bytes) ++ (fieldBytes fs ++ ([13, 10] ++ post)) := by
        simp [fieldBytes, List.append_assoc]
      rw [e]
      cases i with
      | zero =>
        rw [Nat.add_zero, h3 r.kvn (by simp [after])]
        simp only [after, if_true, List.getElem_cons_zero]
        refine ⟨10 :: (fieldBytes fs ++ ([13, 10] ++ post)), ?_⟩
        have e2 : pre ++ f.bytes ++ (fieldBytes fs ++ ([13, 10] ++ post)) = (pre ++ f.name ++ [58] ++ List.replicate f.sp 32) ++
            (f.value ++ 13 :: 10 :: (fieldBytes fs ++ ([13, 10] ++ post))) := by
          simp [Field.bytes, List.append_assoc]
        rw [e2]
        apply List.drop_left'
        simp only [List.length_append, List.length_cons, List.length_nil, List.length_replicate]
      | succ i =>
        have := h6 i (by simp at hi; omega)
        rw [show (after r pre.length f).kvn + i = r.kvn + (i + 1) by simp [after]; omega] at this
        simpa using this

theorem loop_recv (f : Req → Nat → UInt8 → Byte) (n : Nat) (r : Req) (msg : List UInt8) (rx : List Rx) (b : UInt8) (bs : List UInt8)
    (hm : msg = b :: bs) (hl : msg.length ≤ bufn) {r' : Req} {p : Nat} (h : pass f r 0 msg = .done r' p) :
    loop f (n + 1) r [] 0 (.data b bs :: rx) = .done r' msg p rx := by
  subst hm
  rw [loop]
  simp only [List.length_nil, Nat.sub_zero, List.nil_append, List.drop_zero]
  rw [if_pos (by decide), if_neg (by decide)]
  rw [List.take_of_length_le hl, h]

/-- An iteration that finds buffered bytes does not receive. -/
theorem loop_scan (f : Req → Nat → UInt8 → Byte) (n : Nat) (r : Req) (buf : List UInt8) (pos : Nat) (rx : List Rx)
    (h : 1 ≤ buf.length - pos) :
    loop f (n + 1) r buf pos rx =
      match pass f r pos (buf.drop pos) with
      | .err => .err
      | .done r' p => .done r' buf p rx
      | .cont r' => if bufn - buf.length < 1 then .err else loop f n r' buf pos rx := by
  conv => lhs; unfold loop
  rw [if_neg (by omega)]
  cases pass f r pos (buf.drop pos) <;> rfl

/-- Where the end of the head is found: a line end behind a line end, or at the beginning of the scan in a state that waits for it. -/
theorem pass_hdr_done (l : List UInt8) : ∀ (r : Req) (p : Nat) (r' : Req) (q : Nat), pass hdrByte r p l = .done r' q →
    (r.hs = .done ∧ ∃ t, l = 10 :: t) ∨ (r.hs = .keyInit ∧ ∃ t, l = 13 :: 10 :: t) ∨ ∃ s t, l = s ++ 10 :: 13 :: 10 :: t := by
  induction l with
  | nil => intro r p r' q h; cases h
  | cons b l ih =>
    intro r p r' q h
    rw [pass] at h
    cases hb : hdrByte r p b with
    | err => rw [hb] at h; cases h
    | done r1 =>
      refine .inl ?_
      simp only [hdrByte] at hb
      split at hb
      · cases hb
      · cases hs : r.hs <;> simp only [hs] at hb <;> split at hb <;> first | cases hb; done | skip
        rename_i h10
        exact ⟨rfl, l, by rw [h10]⟩
    | cont r1 =>
      rw [hb] at h
      have key : (r1.hs = .done → r.hs = .keyInit ∧ b = 13) ∧ (r1.hs = .keyInit → b = 10) := by
        simp only [hdrByte] at hb
        split at hb
        · cases hb
        · cases hs : r.hs <;> simp only [hs] at hb <;> split at hb <;> cases hb <;> simp_all [Req.setKv]
      rcases ih r1 (p + 1) r' q h with ⟨h1, t, rfl⟩ | ⟨h1, t, rfl⟩ | ⟨s, t, rfl⟩
      · obtain ⟨h2, rfl⟩ := key.1 h1
        exact .inr (.inl ⟨h2, t, rfl⟩)
      · obtain rfl := key.2 h1
        exact .inr (.inr ⟨[], t, rfl⟩)
      · exact .inr (.inr ⟨b :: s, t, rfl⟩)

/-- The first line end. -/
theorem first_lf {a rest s u : List UInt8} (ha : 10 ∉ a) (h : a ++ 10 :: rest = s ++ 10 :: u) :
    (s = a ∧ rest = u) ∨ ∃ s', s = a ++ 10 :: s' ∧ rest = s' ++ 10 :: u := by
  induction a generalizing s with
  | nil =>
    cases s with
    | nil => simp only [List.nil_append, List.cons.injEq, true_and] at h; exact .inl ⟨rfl, h⟩
    | cons x s =>
      simp only [List.nil_append, List.cons_append, List.cons.injEq] at h
      obtain ⟨rfl, h⟩ := h
      exact .inr ⟨s, rfl, h⟩
  | cons y a ih =>
    simp only [List.mem_cons, not_or] at ha
    cases s with
    | nil =>
      simp only [List.nil_append, List.cons_append, List.cons.injEq] at h
      exact absurd h.1.symm ha.1
    | cons x s =>
      simp only [List.cons_append, List.cons.injEq] at h
      obtain ⟨rfl, h⟩ := h
      rcases ih ha.2 h with ⟨rfl, h2⟩ | ⟨s', rfl, h2⟩
      · exact .inl ⟨rfl, h2⟩
      · exact .inr ⟨s', rfl, h2⟩

theorem text_no {l : List UInt8} (h : Text l) {b : UInt8} (hb : b.toNat < 32) : b ∉ l := fun hm => by have := h b hm; omega

/-- The first byte of a field. -/
theorem field_first {f : Field} (hf : f.Ok) : ∃ x l, f.bytes = x :: l ∧ 32 ≤ x.toNat := by
  obtain ⟨h1, h2, -⟩ := hf
  cases hn : f.name with
  | nil => exact absurd hn h1
  | cons x l => exact ⟨x, l ++ 58 :: (List.replicate f.sp 32 ++ (f.value ++ [13, 10])), by simp [Field.bytes, hn], (h2 x (by simp [hn])).1⟩

/-- An empty line ends the fields. -/
theorem empty_line_last (fs : List Field) (hf : ∀ f ∈ fs, f.Ok) : ∀ s t, fieldBytes fs ++ [13, 10] = s ++ 10 :: 13 :: 10 :: t → t = [] := by
  induction fs with
  | nil =>
    intro s t h
    have := congrArg List.length h
    simp [fieldBytes] at this
    omega
  | cons f fs ih =>
    intro s t h
    obtain ⟨-, n2, -, -, n5, -⟩ := hf f (by simp)
    have ha : (10 : UInt8) ∉ f.name ++ 58 :: (List.replicate f.sp 32 ++ (f.value ++ [13])) := by
      simp only [List.mem_append, List.mem_cons, List.mem_replicate, List.not_mem_nil, or_false, not_or]
      exact ⟨text_no n2 (by decide), by decide, by simp, text_no n5 (by decide), by decide⟩
    have h' : (f.name ++ 58 :: (List.replicate f.sp 32 ++ (f.value ++ [13]))) ++ 10 :: (fieldBytes fs ++ [13, 10]) = s ++ 10 :: 13 :: 10 :: t := by
      rw [← h]; simp [fieldBytes, Field.bytes, List.append_assoc]
    rcases first_lf ha h' with ⟨-, h2⟩ | ⟨s', -, h2⟩
    · cases fs with
      | nil => simpa [fieldBytes] using h2.symm
      | cons g gs =>
        obtain ⟨x, l, hx, hx2⟩ := field_first (hf g (by simp))
        simp only [fieldBytes, hx, List.cons_append, List.cons.injEq] at h2
        rw [h2.1] at hx2
        exact absurd hx2 (by decide)
    · exact ih (fun g hg => hf g (by simp [hg])) s' t h2

/-- A scan of an incomplete list of fields never finds its end. -/
theorem part_not_done (fs : List Field) (hf : ∀ f ∈ fs, f.Ok) (part q : List UInt8) (h : part ++ q = fieldBytes fs ++ [13, 10]) (hq : q ≠ []) (r : Req) (p : Nat) :
    ∀ r' p', pass hdrByte r p part ≠ .done r' p' := by
  intro r' p' hd
  have hfirst : ∀ x l, fieldBytes fs ++ [13, 10] = x :: l → x ≠ 10 ∧ (x = 13 → fs = []) := by
    intro x l hx
    cases fs with
    | nil => simp only [fieldBytes, List.nil_append, List.cons.injEq] at hx; exact ⟨by rw [← hx.1]; decide, fun _ => rfl⟩
    | cons g gs =>
      obtain ⟨y, m, hy, hy2⟩ := field_first (hf g (by simp))
      simp only [fieldBytes, hy, List.cons_append, List.cons.injEq] at hx
      rw [hx.1] at hy2
      exact ⟨by rintro rfl; exact absurd hy2 (by decide), by rintro rfl; exact absurd hy2 (by decide)⟩
  rcases pass_hdr_done part r p r' p' hd with ⟨-, t, rfl⟩ | ⟨-, t, rfl⟩ | ⟨s, t, rfl⟩
  · exact (hfirst 10 (t ++ q) (by rw [← h]; rfl)).1 rfl
  · have := (hfirst 13 (10 :: t ++ q) (by rw [← h]; rfl)).2 rfl
    subst this
    simp only [fieldBytes, List.nil_append, List.cons_append, List.cons.injEq, true_and, List.append_eq_nil_iff] at h
    exact hq h.2
  · have := empty_line_last fs hf s (t ++ q) (by rw [← h]; simp)
    exact hq (List.append_eq_nil_iff.mp this).2

end Verif.Http
