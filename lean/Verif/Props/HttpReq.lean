import Verif.Proofs.HttpReq
/-
Properties C31, C32: HTTP request parsing.
-/
namespace Verif.Http

open HttpSpec

/-! ### C31 -/

/-- C31 (at most fifteen fields, non-empty values). A valid request head that arrives in one piece together with arbitrary further
bytes (payload) is split exactly: method, target, version and header fields seen by the handlers are the substrings of the
request, and the payload starts right behind the head.
Missing from the full statement: empty field values and more than fifteen fields (counterexamples below). -/
theorem c31_one_piece_partial (h : Head) (ok : h.Ok) (extra : List UInt8) (hl : (h.bytes ++ extra).length ≤ 4096)
    (b : UInt8) (bs : List UInt8) (hb : h.bytes ++ extra = b :: bs) (n : Nat) (rx : List Rx) :
    ∃ r, head (n + 1) {} [] 0 (.data b bs :: rx) = .done r (h.bytes ++ extra) h.bytes.length rx ∧
      sub (h.bytes ++ extra) r.method = h.method ∧
      sub (h.bytes ++ extra) r.uri = h.target ∧
      sub (h.bytes ++ extra) r.ver = h.version ∧
      fields (h.bytes ++ extra) r = h.fields.map fun f => (f.name, f.value) := by
  have e1 : h.bytes ++ extra = h.line ++ (fieldBytes h.fields ++ ([13, 10] ++ extra)) := by
    simp [Head.bytes, List.append_assoc]
  have P1 := pass_line h ok (fieldBytes h.fields ++ ([13, 10] ++ extra)) 0
  rw [← e1] at P1
  have L1 := loop_recv lineByte n {} (h.bytes ++ extra) rx b bs hb hl P1
  obtain ⟨-, ⟨t, ht, -, -⟩, -, hfl, hfo⟩ := ok
  obtain ⟨r', q1, q2, -, q4, ⟨q5, q6, q7, -⟩, -⟩ := pass_fields h.fields
    { method := ⟨0, h.method.length⟩, uri := ⟨0 + h.method.length + 1, h.target.length⟩,
      ver := ⟨0 + h.method.length + 1 + h.target.length + 1, h.version.length⟩ } h.line extra hfo rfl (by simpa using hfl)
  refine ⟨r', ?_, ?_, ?_, ?_, ?_⟩
  · simp only [head]
    rw [L1]
    simp only [Nat.zero_add]
    rw [loop_scan _ _ _ _ _ _ (by rw [e1]; simp; omega)]
    rw [show (h.bytes ++ extra).drop h.line.length = fieldBytes h.fields ++ ([13, 10] ++ extra) by rw [e1]; simp]
    simp only [Nat.zero_add] at q1
    rw [q1]
    simp only
    congr 1
    simp [Head.bytes]; omega
  · rw [q5]
    have := sub_mid [] h.method (32 :: (h.target ++ (32 :: (h.version ++ [13, 10]))) ++ (fieldBytes h.fields ++ ([13, 10] ++ extra)))
      h.method.length rfl
    refine Eq.trans ?_ this
    congr 1
    rw [e1]; simp [Head.line]
  · rw [q6]
    have := sub_mid (h.method ++ [32]) h.target (32 :: (h.version ++ [13, 10]) ++ (fieldBytes h.fields ++ ([13, 10] ++ extra)))
      h.target.length rfl
    refine Eq.trans ?_ this
    congr 1
    · rw [e1]; simp [Head.line]
    · simp
  · rw [q7]
    have := sub_mid (h.method ++ [32] ++ h.target ++ [32]) h.version ([13, 10] ++ (fieldBytes h.fields ++ ([13, 10] ++ extra)))
      h.version.length rfl
    refine Eq.trans ?_ this
    congr 1
    · rw [e1]; simp [Head.line]
    · simp; omega
  · simp only [fields, q2]
    apply List.ext_getElem
    · simp
    · intro i h1 h2
      simp only [List.length_map, List.length_range] at h1
      simp only [Nat.zero_add] at h1
      simp only [List.getElem_map, List.getElem_range]
      have := q4 i h1
      simp only [Nat.zero_add] at this
      rw [e1, this.1, this.2]

/-- `GET /a HTTP/1.1` with the field `Host: x`. -/
def sampleHead : Head :=
  ⟨[71, 69, 84], [47, 97], [72, 84, 84, 80, 47, 49, 46, 49], [⟨[72, 111, 115, 116], 1, [120]⟩]⟩

theorem sampleHead_ok : sampleHead.Ok := by
  refine ⟨⟨by decide, by decide, ?_, by decide⟩, ⟨[97], rfl, ?_, by decide⟩, ⟨by decide, ?_⟩, by decide, ?_⟩
  · unfold Text; decide
  · unfold Text; decide
  · unfold Text; decide
  · intro f hf
    simp only [sampleHead, List.mem_singleton] at hf
    subst hf
    refine ⟨by decide, ?_, by decide, by decide, ?_, by decide⟩
    · unfold Text; decide
    · unfold Text; decide

/-- Non-trivial case: the hypotheses of C31 are met by `GET /a HTTP/1.1`, `Host: x`. -/
example : sampleHead.Ok ∧ sampleHead.bytes.length ≤ bufn := ⟨sampleHead_ok, by decide⟩

/-- The header fields of the result, if parsing completed. -/
def Out.fieldsOf : Out → Option (List (List UInt8 × List UInt8))
  | .done r buf _ _ => some (fields buf r)
  | _ => none

/-- The line `GET / HTTP/1.1`. -/
def line0 : List UInt8 := [71, 69, 84, 32, 47, 32, 72, 84, 84, 80, 47, 49, 46, 49, 13, 10]

/-- A message as one receive. -/
def oneRx : List UInt8 → List Rx
  | [] => []
  | b :: bs => [.data b bs]

/-- C31 counterexample: a field with an empty value (`A:`, then `B: c`) swallows the next field; handlers see one field `A` whose value
is a line break followed by `B: c`. -/
theorem c31_empty_value_counterexample :
    (head 3 {} [] 0 (oneRx (line0 ++ [65, 58, 13, 10, 66, 58, 32, 99, 13, 10, 13, 10]))).fieldsOf =
      some [([65], [13, 10, 66, 58, 32, 99])] := by
  decide +kernel

/-- C31 counterexample: of sixteen fields (`A:0` … `P:0`) the last is not seen. -/
theorem c31_sixteen_fields_counterexample :
    ((head 3 {} [] 0 (oneRx (line0 ++ (List.range 16).flatMap (fun i => [UInt8.ofNat (65 + i), 58, 48, 13, 10]) ++ [13, 10]))).fieldsOf).map
      List.length = some 15 := by
  decide +kernel

/-! ### C32 -/

/-- A result other than still looping or closing the connection. -/
def Out.progress : Out → Bool
  | .running => false
  | .err => false
  | _ => true

theorem pass_no_lf (l : List UInt8) (h : 10 ∉ l) : ∀ r p, (∃ r', pass lineByte r p l = .cont r') ∨ pass lineByte r p l = .err := by
  induction l with
  | nil => intro r p; exact Or.inl ⟨r, rfl⟩
  | cons b l ih =>
    intro r p
    simp only [List.mem_cons, not_or] at h
    have ih := ih h.2
    rw [pass]
    cases hb : lineByte r p b with
    | err => exact Or.inr rfl
    | cont r' => exact ih r' (p + 1)
    | done r' =>
      exfalso
      have hne : ¬ b = 10 := fun e => h.1 e.symm
      simp only [lineByte] at hb
      repeat' split at hb
      all_goals first
        | (cases hb; done)
        | exact hne ‹_›

/-- C32 is false in general: if the first segment of a request is non-empty and does not contain the end of the request line, the parser
never receives the rest. It keeps scanning the same bytes and, if it leaves the loop at all, closes the connection: whatever arrives
later (`rx`), it neither waits nor finishes. -/
theorem c32_rest_never_read_counterexample (b : UInt8) (bs : List UInt8) (h : 10 ∉ b :: bs) (n : Nat) (rx : List Rx) :
    (head n {} [] 0 (.data b bs :: rx)).progress = false := by
  have key : ∀ (n : Nat) (r : Req) (buf : List UInt8) (rx : List Rx), 10 ∉ buf → buf ≠ [] →
      (loop lineByte n r buf 0 rx).progress = false ∧ ∀ r' b' p q, loop lineByte n r buf 0 rx ≠ .done r' b' p q := by
    intro n
    induction n with
    | zero => intro r buf rx _ _; exact ⟨rfl, by intro r' b' p q; simp [loop]⟩
    | succ n ih =>
      intro r buf rx hb hne
      have hlen : 1 ≤ buf.length - 0 := by
        have : 0 < buf.length := List.length_pos_iff.mpr hne
        omega
      rw [loop_scan _ _ _ _ _ _ hlen]
      simp only [List.drop_zero]
      rcases pass_no_lf buf hb r 0 with ⟨r', hr⟩ | hr
      · rw [hr]
        simp only
        split
        · exact ⟨rfl, by intro r' b' p q; simp⟩
        · exact ih r' buf rx hb hne
      · rw [hr]
        exact ⟨rfl, by intro r' b' p q; simp⟩
  have first : (loop lineByte n {} [] 0 (.data b bs :: rx)).progress = false ∧
      ∀ r' b' p q, loop lineByte n {} [] 0 (.data b bs :: rx) ≠ .done r' b' p q := by
    cases n with
    | zero => exact ⟨rfl, by intro r' b' p q; simp [loop]⟩
    | succ n =>
      rw [loop]
      rw [if_pos (by simp), if_neg (by decide)]
      simp only [List.nil_append, List.drop_zero, List.length_nil, Nat.sub_zero]
      have ht : 10 ∉ (b :: bs).take bufn := fun hc => h (List.mem_of_mem_take hc)
      have hne : (b :: bs).take bufn ≠ [] := by simp [bufn]
      rcases pass_no_lf _ ht {} 0 with ⟨r', hr⟩ | hr
      · rw [hr]
        simp only
        split
        · exact ⟨rfl, by intro r' b' p q; simp⟩
        · exact key n r' _ rx ht hne
      · rw [hr]
        exact ⟨rfl, by intro r' b' p q; simp⟩
  simp only [head]
  cases hl : loop lineByte n {} [] 0 (.data b bs :: rx) with
  | done r' b' p q => exact absurd hl (first.2 r' b' p q)
  | running => rfl
  | err => rfl
  | wait r' b' p => rw [hl] at first; exact absurd first.1 (by simp [Out.progress])
  | aborted => rw [hl] at first; exact absurd first.1 (by simp [Out.progress])

/-- Case: `GE` first, the rest of the request later. -/
example : (head 3 {} [] 0 [.data 71 [69], .data 84 (line0.drop 3 ++ [13, 10])]).progress = false :=
  c32_rest_never_read_counterexample 71 [69] (by decide) 3 _

/-- A state that a scan of the buffer does not change is never left. -/
theorem loop_stuck (f : Req → Nat → UInt8 → Byte) (r : Req) (buf : List UInt8) (pos : Nat) (rx : List Rx)
    (h : pass f r pos (buf.drop pos) = .cont r) (h1 : 1 ≤ buf.length - pos) (h2 : buf.length < bufn) :
    ∀ n, loop f n r buf pos rx = .running := by
  intro n
  induction n with
  | zero => rfl
  | succ n ih =>
    rw [loop_scan _ _ _ _ _ _ h1, h]
    simp only
    rw [if_neg (by omega)]
    exact ih

/-- `GET /index` -/
def cutLine : List UInt8 := [69, 84, 32, 47, 105, 110, 100, 101, 120]

/-- C32 counterexample, endless loop: when the first segment is `GET /index`, the worker never leaves the parser: for every number of
iterations and whatever arrives later, it is still looping. -/
theorem c32_hang_counterexample (rx : List Rx) : ∀ n, head n {} [] 0 (.data 71 cutLine :: rx) = .running := by
  have h1 : pass lineByte {} 0 (71 :: cutLine) = .cont { method := ⟨0, 3⟩, uri := ⟨4, 0⟩, ls := .uri } := rfl
  have h2 : pass lineByte { method := ⟨0, 3⟩, uri := ⟨4, 0⟩, ls := .uri } 0 (71 :: cutLine) =
      .cont { method := ⟨0, 3⟩, uri := ⟨4, -1⟩, ver := ⟨4, 0⟩, ls := .ver } := rfl
  have h3 : pass lineByte { method := ⟨0, 3⟩, uri := ⟨4, -1⟩, ver := ⟨4, 0⟩, ls := .ver } 0 (71 :: cutLine) =
      .cont { method := ⟨0, 3⟩, uri := ⟨4, -1⟩, ver := ⟨4, 0⟩, ls := .ver } := rfl
  have hl : ∀ n, loop lineByte n {} [] 0 (.data 71 cutLine :: rx) = .running := by
    intro n
    match n with
    | 0 => rfl
    | 1 => rfl
    | n + 2 =>
      have e : (71 :: cutLine).take bufn = 71 :: cutLine := by decide
      rw [loop, if_pos (by decide), if_neg (by decide)]
      simp only [List.nil_append, List.drop_zero, List.length_nil, Nat.sub_zero]
      rw [e, h1]
      simp only
      rw [if_neg (by decide), loop_scan _ _ _ _ _ _ (by decide)]
      simp only [List.drop_zero]
      rw [h2]
      simp only
      rw [if_neg (by decide)]
      exact loop_stuck _ _ _ _ _ h3 (by decide) (by decide) n
  intro n
  simp only [head, hl n]

/-- C32 counterexample, endless loop inside the header: after `GET / HTTP/1.1`, `Host: a` without its line end, the worker loops for ever
as well. -/
theorem c32_hang_header_counterexample (rx : List Rx) :
    ∀ n, head (n + 1) {} [] 0 (.data 71 (line0.tail ++ [72, 111, 115, 116, 58, 32, 97]) :: rx) = .running := by
  intro n
  have h1 : pass lineByte {} 0 (line0 ++ [72, 111, 115, 116, 58, 32, 97]) =
      .done { method := ⟨0, 3⟩, uri := ⟨4, 1⟩, ver := ⟨6, 8⟩ } 16 := rfl
  have L := loop_recv lineByte n {} (line0 ++ [72, 111, 115, 116, 58, 32, 97]) rx 71 (line0.tail ++ [72, 111, 115, 116, 58, 32, 97])
    rfl (by decide) h1
  simp only [head]
  rw [L]
  simp only
  rw [loop_scan _ _ _ _ _ _ (by decide)]
  have hd : (line0 ++ [72, 111, 115, 116, 58, 32, 97]).drop 16 = [72, 111, 115, 116, 58, 32, 97] := rfl
  rw [hd]
  generalize hr : pass hdrByte { method := ⟨0, 3⟩, uri := ⟨4, 1⟩, ver := ⟨6, 8⟩ } 16 [72, 111, 115, 116, 58, 32, 97] = x
  have : ∃ r : Req, x = .cont r ∧ r.hs = .val := by
    rw [← hr]; exact ⟨_, rfl, rfl⟩
  obtain ⟨r, rfl, hv⟩ := this
  simp only
  rw [if_neg (by decide)]
  apply loop_stuck
  · rw [hd]
    have := pass_skip hdrByte r [72, 111, 115, 116, 58, 32, 97] [] 16 (by
      intro b hb q
      simp only [List.mem_cons, List.not_mem_nil, or_false] at hb
      rcases hb with rfl | rfl | rfl | rfl | rfl | rfl | rfl <;> simp [hdrByte, hv, bad])
    simpa [pass] using this
  · decide
  · decide

/-- The target's span, if parsing completed. -/
def Out.uriOf : Out → Option Span
  | .done r _ _ _ => some r.uri
  | _ => none

/-- C32 counterexample, wrong request: the incomplete request of two empty lines and `GET /x` is accepted after repeated scans of the
same bytes, with a target of length −1; the router then copies that many bytes (src/app/webser.c:407). -/
theorem c32_incomplete_accepted_counterexample (rx : List Rx) :
    (head 3 {} [] 0 (.data 13 [10, 13, 10, 71, 69, 84, 32, 47, 120] :: rx)).uriOf = some ⟨8, -1⟩ := by
  rfl

/-- C32 (cut between request line and header). If the request line arrives in one receive and everything else in the next, the result is
that of the one-piece request. Missing: every other cut inside the head, where the claim is false. -/
theorem c32_line_boundary_partial (h : Head) (ok : h.Ok) (extra : List UInt8) (hl : (h.bytes ++ extra).length ≤ 4096)
    (b : UInt8) (bs : List UInt8) (hb : h.line = b :: bs) (c : UInt8) (cs : List UInt8)
    (hc : fieldBytes h.fields ++ ([13, 10] ++ extra) = c :: cs) (n : Nat) (rx : List Rx) :
    head (n + 1) {} [] 0 (.data b bs :: .data c cs :: rx) =
      head (n + 1) {} [] 0 (.data b (bs ++ (c :: cs)) :: rx) := by
  have e1 : h.bytes ++ extra = h.line ++ (fieldBytes h.fields ++ ([13, 10] ++ extra)) := by
    simp [Head.bytes, List.append_assoc]
  rw [e1] at hl
  have P0 := pass_line h ok [] 0
  rw [List.append_nil] at P0
  have P1 := pass_line h ok (fieldBytes h.fields ++ ([13, 10] ++ extra)) 0
  have hl0 : h.line.length + (fieldBytes h.fields ++ ([13, 10] ++ extra)).length ≤ bufn := by
    rw [← List.length_append]; exact hl
  have L0 := loop_recv lineByte n {} h.line (.data c cs :: rx) b bs hb (by omega) P0
  have L1 := loop_recv lineByte n {} (h.line ++ (fieldBytes h.fields ++ ([13, 10] ++ extra))) rx b (bs ++ (c :: cs))
    (by rw [hb, hc]; rfl) hl P1
  simp only [head]
  rw [L0, L1]
  simp only [Nat.zero_add]
  have hclen : (c :: cs).length ≤ bufn - h.line.length := by rw [← hc]; omega
  rw [loop, if_pos (by omega), if_neg (by have : 1 ≤ (c :: cs).length := by simp
                                          omega)]
  simp only
  rw [List.take_of_length_le hclen, ← hc]
  rw [loop_scan _ _ _ _ _ _ (by simp; omega)]
  cases pass hdrByte _ h.line.length ((h.line ++ (fieldBytes h.fields ++ ([13, 10] ++ extra))).drop h.line.length) <;> rfl

/-- Case: the request line `GET /a HTTP/1.1` in one segment, the field and the empty line in the next. -/
example (n : Nat) (rx : List Rx) : head (n + 1) {} [] 0 (.data 71 sampleHead.line.tail :: .data 72 [111, 115, 116, 58, 32, 120, 13, 10, 13, 10] :: rx) =
    head (n + 1) {} [] 0 (.data 71 (sampleHead.line.tail ++ [72, 111, 115, 116, 58, 32, 120, 13, 10, 13, 10]) :: rx) :=
  c32_line_boundary_partial sampleHead sampleHead_ok [] (by decide) 71 _ rfl 72 _ rfl n rx

/-- The bytes of a list of receives. -/
def rxBytes : List Rx → List UInt8
  | [] => []
  | .data b bs :: r => (b :: bs) ++ rxBytes r
  | _ :: r => rxBytes r

/-- C32 (payload). Once the head is read, the payload does not depend on how the stream is cut: with the bytes already received and those
arriving, it is the first `n` bytes, and until `n` bytes are there the connection waits. -/
theorem c32_payload_partial (n : Nat) (got : List UInt8) (rx : List Rx) (hd : ∀ x ∈ rx, ∃ b bs, x = .data b bs)
    (hg : got.length ≤ n) :
    if n ≤ (got ++ rxBytes rx).length then
      ∃ rest, payLoop n got rx = .ok ((got ++ rxBytes rx).take n) rest ∧ rxBytes rest = (got ++ rxBytes rx).drop n
    else payLoop n got rx = .wait (got ++ rxBytes rx) := by
  fun_induction payLoop n got rx
  case case1 got hlt => simp [rxBytes]; omega
  case case2 => exact absurd (hd .again (by simp)) (by simp)
  case case3 => exact absurd (hd .fail (by simp)) (by simp)
  case case4 got hlt b bs rest room hdrop ih =>
    have hle : (b :: bs).length ≤ room := List.drop_eq_nil_iff.mp hdrop
    have := ih (fun x hx => hd x (List.mem_cons_of_mem _ hx)) (by simp only [List.length_append]; omega)
    simpa [rxBytes, List.append_assoc] using this
  case case5 got hlt b bs rest room x xs hdrop ih =>
    have := ih (by
      intro y hy
      rcases List.mem_cons.mp hy with rfl | hy
      · exact ⟨x, xs, rfl⟩
      · exact hd y (List.mem_cons_of_mem _ hy)) (by simp only [List.length_append, List.length_take]; omega)
    have e : got ++ (b :: bs).take room ++ rxBytes (.data x xs :: rest) = got ++ rxBytes (.data b bs :: rest) := by
      simp only [rxBytes]
      rw [← hdrop, ← List.append_assoc, List.append_assoc got, List.take_append_drop]
      simp
    rw [e] at this
    exact this
  case case6 got rx hlt =>
    have : got.length = n := by omega
    rw [if_pos (by simp; omega)]
    exact ⟨rx, by rw [List.take_append_of_le_length (by omega), List.take_of_length_le (by omega)],
      by rw [List.drop_append_of_le_length (by omega), List.drop_of_length_le (by omega)]; simp⟩

/-- Case: six bytes announced, two there already, the rest in two segments of which the second holds one byte too many. -/
example : payLoop 6 [1, 2] [.data 3 [4], .data 5 [6, 7]] = .ok [1, 2, 3, 4, 5, 6] [.data 7 []] := by decide +kernel

/-- Finding: a request line of exactly the buffer size makes the parser call `recv` for zero bytes, which aborts the worker. -/
theorem c32_full_line_abort_counterexample (rx : List Rx) (h : Head) (ok : h.Ok) (hl : h.line.length = 4096)
    (b : UInt8) (bs : List UInt8) (hb : h.line = b :: bs) (n : Nat) :
    head (n + 1) {} [] 0 (.data b bs :: rx) = .aborted := by
  have e : bufn = 4096 := rfl
  have P0 := pass_line h ok [] 0
  rw [List.append_nil] at P0
  have L0 := loop_recv lineByte n {} h.line rx b bs hb (by omega) P0
  simp only [head]
  rw [L0]
  simp only [Nat.zero_add]
  unfold loop
  rw [if_pos (by omega), if_pos (by omega)]

/-- Such a request line exists: `GET /aaa… HTTP/1.1`. -/
example : ∃ h : Head, h.Ok ∧ h.line.length = bufn := by
  refine ⟨⟨sGet, 47 :: List.replicate 4080 97, [72, 84, 84, 80, 47, 49, 46, 49], []⟩, ?_, ?_⟩
  · refine ⟨⟨by decide, by decide, by unfold Text; decide, by decide⟩, ⟨_, rfl, ?_, ?_⟩, ⟨by decide, by unfold Text; decide⟩, by decide, by simp⟩
    · intro b hb; rw [List.eq_of_mem_replicate hb]; decide
    · intro hb; exact absurd (List.eq_of_mem_replicate hb) (by decide)
  · simp [Head.line, sGet, bufn, -List.reduceReplicate]

/-! ### C32, every cut -/

/-- Such a scan goes on for ever or ends in an error; nothing more is received. -/
theorem part_stuck (buf : List UInt8) (pos : Nat) (hb : 1 ≤ buf.length - pos) (hd : ∀ r r' p', pass hdrByte r pos (buf.drop pos) ≠ .done r' p') (n : Nat) (r : Req) (rx : List Rx) :
    (loop hdrByte n r buf pos rx).progress = false := by
  induction n generalizing r with
  | zero => rfl
  | succ n ih =>
    rw [loop_scan _ _ _ _ _ _ hb]
    cases hp : pass hdrByte r pos (buf.drop pos) with
    | err => rfl
    | done r' p' => exact absurd hp (hd r r' p')
    | cont r' =>
      simp only
      split
      · rfl
      · exact ih r'

/-- C32 is false at every other cut: if the first piece of a valid request ends anywhere inside its head, except right behind the request line, the parser never receives the
rest. It loops on the same bytes or closes the connection, whatever arrives later (`rx`). -/
theorem c32_cut_counterexample (h : Head) (ok : h.Ok) (hl : h.bytes.length ≤ 4096) (b : UInt8) (bs q : List UInt8) (hb : (b :: bs) ++ q = h.bytes) (hq : q ≠ [])
    (hc : b :: bs ≠ h.line) (n : Nat) (rx : List Rx) : (head n {} [] 0 (.data b bs :: rx)).progress = false := by
  have hlf : ∃ x, h.line = x ++ [13, 10] ∧ 10 ∉ x ++ [13] := by
    obtain ⟨⟨-, -, m3, -⟩, ⟨t, ht, t2, -⟩, ⟨-, v2⟩, -⟩ := ok
    refine ⟨h.method ++ (32 :: (h.target ++ (32 :: h.version))), by simp [Head.line], ?_⟩
    simp only [ht, List.mem_append, List.mem_cons, List.not_mem_nil, or_false, not_or]
    exact ⟨⟨text_no m3 (by decide), by decide, ⟨by decide, text_no t2 (by decide)⟩, by decide, text_no v2 (by decide)⟩, by decide⟩
  obtain ⟨x, hx, hx10⟩ := hlf
  rw [Head.bytes] at hb
  rcases List.append_eq_append_iff.mp hb with ⟨a, h1, h2⟩ | ⟨a, h1, h2⟩
  · -- the piece ends in the line, or with it
    have ha : a ≠ [] := by rintro rfl; rw [List.append_nil] at h1; exact hc h1.symm
    refine c32_rest_never_read_counterexample b bs (fun hm => ?_) n rx
    obtain ⟨a', z, rfl⟩ : ∃ a' z, a = a' ++ [z] := ⟨_, _, (List.dropLast_concat_getLast ha).symm⟩
    rw [hx, show x ++ [13, 10] = (x ++ [13]) ++ [10] by simp, ← List.append_assoc] at h1
    have := List.append_inj_left' h1 rfl
    exact hx10 (by rw [this]; exact List.mem_append_left _ hm)
  · have ha : a ≠ [] := by rintro rfl; rw [List.append_nil] at h1; exact hc h1
    cases n with
    | zero => rfl
    | succ n =>
      have P1 := pass_line h ok a 0
      rw [← h1] at P1
      have hlen : (b :: bs).length ≤ bufn := by
        have := congrArg List.length hb
        simp only [Head.bytes] at hl
        rw [List.length_append] at this
        simp only [bufn]
        omega
      have L1 := loop_recv lineByte n {} (b :: bs) rx b bs rfl hlen P1
      simp only [head]
      rw [L1]
      simp only [Nat.zero_add]
      have hd : (b :: bs).drop h.line.length = a := by rw [h1]; simp
      refine part_stuck _ _ ?_ ?_ _ _ _
      · rw [h1, List.length_append]
        have := List.length_pos_iff.mpr ha
        omega
      · rw [hd]
        exact fun r => part_not_done h.fields ok.2.2.2.2 a q h2.symm hq r _

/-- C32, exactly: a valid head of at most 4096 bytes that arrives in two pieces is understood if and only if the cut is right behind the request line. -/
theorem c32_cut_iff (h : Head) (ok : h.Ok) (hl : h.bytes.length ≤ 4096) (b : UInt8) (bs : List UInt8) (c : UInt8) (cs : List UInt8) (hb : (b :: bs) ++ (c :: cs) = h.bytes) (n : Nat)
    (rx : List Rx) : (head (n + 1) {} [] 0 (.data b bs :: .data c cs :: rx)).progress = true ↔ b :: bs = h.line := by
  constructor
  · intro hp
    refine Classical.byContradiction fun hc => ?_
    rw [c32_cut_counterexample h ok hl b bs (c :: cs) hb (by simp) hc] at hp
    cases hp
  · intro hline
    have hc : fieldBytes h.fields ++ ([13, 10] ++ []) = c :: cs := by
      rw [Head.bytes, ← hline] at hb
      rw [List.append_nil]
      exact (List.append_cancel_left hb).symm
    rw [c32_line_boundary_partial h ok [] (by simpa using hl) b bs hline.symm c cs hc n rx]
    obtain ⟨r, e, -⟩ := c31_one_piece_partial h ok [] (by simpa using hl) b (bs ++ c :: cs) (by rw [List.append_nil, ← hb]; rfl) n rx
    rw [e]
    rfl

/-- Case: `GET /a HTTP/1.1`, `Host: x`, cut behind the request line; behind the name of the field; before the last byte. -/
example : (head 5 {} [] 0 [.data 71 (sampleHead.bytes.tail.take 16), .data 72 (sampleHead.bytes.drop 18)]).progress = true ∧
    (head 5 {} [] 0 [.data 71 (sampleHead.bytes.tail.take 20), .data 58 (sampleHead.bytes.drop 22)]).progress = false ∧
    (head 5 {} [] 0 [.data 71 (sampleHead.bytes.dropLast.tail), .data 10 []]).progress = false :=
  ⟨(c32_cut_iff sampleHead sampleHead_ok (by decide) _ _ _ _ (by decide) 4 []).mpr (by decide),
   c32_cut_counterexample sampleHead sampleHead_ok (by decide) _ _ (sampleHead.bytes.drop 21) (by decide) (by decide) (by decide) 5 _,
   c32_cut_counterexample sampleHead sampleHead_ok (by decide) _ _ [10] (by decide) (by decide) (by decide) 5 _⟩

end Verif.Http
