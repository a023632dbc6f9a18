import Verif.Proofs.HttpBody
import Verif.Props.HttpReq
/-
Properties C64-C67: absolute request lines, the characters of a request head, the announced body length, and keep-alive.
-/
namespace Verif.Http

open HttpSpec

/-! ### C64 -/

/-- C64 (at most fifteen fields, non-empty values). A request in absolute form that arrives in one piece is split exactly: scheme, host,
port, target and version seen by the handlers are the substrings of the request, and without a port none is set.
Missing from the full statement: empty field values and more than fifteen fields (as in C31), an address in brackets and user
information, whose colons end the host (counterexample below). -/
theorem c64_absolute_partial (h : Absolute) (ok : h.Ok) (fs : List Field) (hfs : fs.length ≤ 15) (hfo : ∀ f ∈ fs, f.Ok)
    (extra msg : List UInt8) (hmsg : msg = h.line ++ (fieldBytes fs ++ ([13, 10] ++ extra))) (hl : msg.length ≤ 4096)
    (b : UInt8) (bs : List UInt8) (hb : msg = b :: bs) (n : Nat) (rx : List Rx) :
    ∃ r, head (n + 1) {} [] 0 (.data b bs :: rx) = .done r msg (msg.length - extra.length) rx ∧
      sub msg r.method = h.method ∧
      sub msg r.scheme = h.scheme ∧
      sub msg r.host = h.host ∧
      sub msg r.port = h.port.getD [] ∧
      sub msg r.uri = h.target ∧
      sub msg r.ver = h.version ∧
      fields msg r = fs.map fun f => (f.name, f.value) := by
  have P1 := pass_abs h ok (fieldBytes fs ++ ([13, 10] ++ extra)) 0
  rw [← hmsg] at P1
  have L1 := loop_recv lineByte n {} msg rx b bs hb hl P1
  obtain ⟨r', q1, q2, -, q4, ⟨q5, q6, q7, q8, q9, q10⟩, -⟩ := pass_fields fs (absReq h 0) h.line extra hfo rfl
    (by simpa [absReq] using hfs)
  have hk : (absReq h 0).kvn = 0 := rfl
  rw [hk] at q2 q4
  simp only [Nat.zero_add] at q2 q4 P1 L1
  refine ⟨r', ?_, ?_, ?_, ?_, ?_, ?_, ?_, ?_⟩
  · simp only [head]
    rw [L1]
    simp only
    rw [loop_scan _ _ _ _ _ _ (by rw [hmsg]; simp; omega)]
    rw [show msg.drop h.line.length = fieldBytes fs ++ ([13, 10] ++ extra) by rw [hmsg]; simp]
    rw [q1]
    simp only
    congr 1
    rw [hmsg]; simp; omega
  · rw [q5]
    refine Eq.trans ?_ (sub_mid [] h.method ((32 :: (h.scheme ++ (58 :: 47 :: 47 :: (h.host ++ (portBytes h.port ++
      (h.target ++ (32 :: (h.version ++ [13, 10]))))))))  ++ (fieldBytes fs ++ ([13, 10] ++ extra))) h.method.length rfl)
    rw [hmsg]
    simp [Absolute.line, absReq]
  · rw [q8]
    refine Eq.trans ?_ (sub_mid (h.method ++ [32]) h.scheme ((58 :: 47 :: 47 :: (h.host ++ (portBytes h.port ++
      (h.target ++ (32 :: (h.version ++ [13, 10]))))))  ++ (fieldBytes fs ++ ([13, 10] ++ extra))) h.scheme.length rfl)
    rw [hmsg]
    simp [Absolute.line, absReq]
  · rw [q9]
    refine Eq.trans ?_ (sub_mid (h.method ++ [32] ++ h.scheme ++ [58, 47, 47]) h.host ((portBytes h.port ++
      (h.target ++ (32 :: (h.version ++ [13, 10]))))  ++ (fieldBytes fs ++ ([13, 10] ++ extra))) h.host.length rfl)
    rw [hmsg]
    congr 1
    · simp [Absolute.line]
    · simp [absReq]; omega
  · rw [q10]
    cases hp : h.port with
    | none => simp [absReq, hp, sub]
    | some q =>
      refine Eq.trans ?_ (sub_mid (h.method ++ [32] ++ h.scheme ++ [58, 47, 47] ++ h.host ++ [58]) q ((
        (h.target ++ (32 :: (h.version ++ [13, 10]))))  ++ (fieldBytes fs ++ ([13, 10] ++ extra))) q.length rfl)
      rw [hmsg]
      congr 1
      · simp [Absolute.line, hp, portBytes]
      · simp [absReq, hp]; omega
  · rw [q6]
    refine Eq.trans ?_ (sub_mid (h.method ++ [32] ++ h.scheme ++ [58, 47, 47] ++ h.host ++ portBytes h.port) h.target ((
      ((32 :: (h.version ++ [13, 10]))))  ++ (fieldBytes fs ++ ([13, 10] ++ extra))) h.target.length rfl)
    rw [hmsg]
    congr 1
    · simp [Absolute.line]
    · simp [absReq]; omega
  · rw [q7]
    refine Eq.trans ?_ (sub_mid (h.method ++ [32] ++ h.scheme ++ [58, 47, 47] ++ h.host ++ portBytes h.port ++ h.target ++ [32]) h.version
      ([13, 10]  ++ (fieldBytes fs ++ ([13, 10] ++ extra))) h.version.length rfl)
    rw [hmsg]
    congr 1
    · simp [Absolute.line]
    · simp [absReq]; omega
  · simp only [fields, q2]
    apply List.ext_getElem
    · simp
    · intro i h1 h2
      simp only [List.length_map, List.length_range] at h1
      simp only [List.getElem_map, List.getElem_range]
      have := q4 i h1
      rw [hmsg, this.1, this.2]

/-- `GET http://ab:80/x HTTP/1.1` -/
def sampleAbs : Absolute :=
  ⟨[71, 69, 84], [104, 116, 116, 112], [97, 98], some [56, 48], [47, 120], [72, 84, 84, 80, 47, 49, 46, 49]⟩

/-- Non-trivial case: the line `GET http://ab:80/x HTTP/1.1` meets the hypotheses of C64. -/
example : sampleAbs.Ok ∧ sampleAbs.line.length ≤ bufn := by
  refine ⟨⟨⟨by decide, by decide, ?_, by decide⟩, ⟨by decide, ?_, by decide, by decide, by decide⟩,
    ⟨by decide, ?_, by decide, by decide, by decide⟩, ?_, ⟨[120], rfl, ?_, by decide⟩, ⟨by decide, ?_⟩⟩, by decide⟩
  · unfold Text; decide
  · unfold Text; decide
  · unfold Text; decide
  · intro p hp
    simp only [sampleAbs, Option.some.injEq] at hp
    subst hp
    refine ⟨by decide, ?_, by decide, by decide⟩
    unfold Text; decide
  · unfold Text; decide
  · unfold Text; decide

/-- Host and port of the result, if parsing completed. -/
def Out.hostOf : Out → Option (List UInt8 × List UInt8)
  | .done r buf _ _ => some (sub buf r.host, sub buf r.port)
  | _ => none

/-- C64 counterexample: in `GET http://[::1]:80/ HTTP/1.1` the host is read as `[` and the port as `:1]:80`. -/
theorem c64_ipv6_counterexample :
    (head 3 {} [] 0 (oneRx ([71, 69, 84, 32, 104, 116, 116, 112, 58, 47, 47, 91, 58, 58, 49, 93, 58, 56, 48, 47, 32] ++
      line0.drop 6 ++ [13, 10]))).hostOf = some ([91], [58, 49, 93, 58, 56, 48]) := by
  decide +kernel

/-! ### C65 -/

theorem bad_headByte {b : UInt8} (h : bad b = false) : HeadByte b := by
  have h1 : b < (32 : UInt8) ↔ b.toNat < 32 := UInt8.lt_iff_toNat_lt
  have h2 : b > (127 : UInt8) ↔ 127 < b.toNat := UInt8.lt_iff_toNat_lt
  unfold HeadByte
  by_cases e13 : b = 13
  · exact Or.inr (Or.inl e13)
  by_cases e10 : b = 10
  · exact Or.inr (Or.inr e10)
  left
  simp only [bad, e13, e10, ne_eq, not_false_eq_true, decide_true, Bool.and_true, Bool.or_eq_false_iff, decide_eq_false_iff_not,
    h1, h2] at h
  omega

theorem pass_done_text (f : Req → Nat → UInt8 → Byte) (hf : ∀ r p b, bad b = true → f r p b = .err) (l : List UInt8) :
    ∀ r p r' q, pass f r p l = .done r' q → p ≤ q ∧ q - p ≤ l.length ∧ ∀ b ∈ l.take (q - p), HeadByte b := by
  induction l with
  | nil => intro r p r' q h; simp [pass] at h
  | cons b l ih =>
    intro r p r' q h
    have hbad : bad b = false := by
      cases hb : bad b with
      | false => rfl
      | true => rw [pass, hf r p b hb] at h; cases h
    rw [pass] at h
    cases hb : f r p b with
    | err => rw [hb] at h; cases h
    | done r1 =>
      rw [hb] at h
      simp only [Pass.done.injEq] at h
      obtain ⟨-, rfl⟩ := h
      refine ⟨by omega, by simp, ?_⟩
      intro x hx
      rw [show p + 1 - p = 1 by omega] at hx
      simp at hx
      subst hx
      exact bad_headByte hbad
    | cont r1 =>
      rw [hb] at h
      obtain ⟨h1, h2, h3⟩ := ih _ _ _ _ h
      refine ⟨by omega, by simp only [List.length_cons]; omega, ?_⟩
      intro x hx
      rw [show q - p = (q - (p + 1)) + 1 by omega, List.take_succ_cons] at hx
      rcases List.mem_cons.mp hx with rfl | hx
      · exact bad_headByte hbad
      · exact h3 x hx

theorem loop_done_text (f : Req → Nat → UInt8 → Byte) (hf : ∀ r p b, bad b = true → f r p b = .err) :
    ∀ n r buf pos rx r' buf' q rest, loop f n r buf pos rx = .done r' buf' q rest → pos ≤ buf.length →
      buf <+: buf' ∧ pos ≤ q ∧ q ≤ buf'.length ∧ ∀ b ∈ (buf'.drop pos).take (q - pos), HeadByte b := by
  intro n
  induction n with
  | zero => intro r buf pos rx r' buf' q rest h; simp [loop] at h
  | succ n ih =>
    intro r buf pos rx r' buf' q rest h hp
    rw [loop.eq_def] at h
    dsimp only at h
    split at h
    · split at h
      · cases h
      · split at h
        · cases h
        · cases h
        · cases h
        · rename_i b bs rest1
          split at h
          · cases h
          · rename_i r1 q1 hd
            simp only [Out.done.injEq] at h
            obtain ⟨-, rfl, rfl, -⟩ := h
            obtain ⟨a1, a2, a3⟩ := pass_done_text f hf _ _ _ _ _ hd
            refine ⟨List.prefix_append _ _, a1, ?_, a3⟩
            rw [List.length_drop] at a2
            simp only [List.length_append] at a2 ⊢
            omega
          · split at h
            · cases h
            · obtain ⟨a1, a2, a3, a4⟩ := ih _ _ _ _ _ _ _ _ h (by simp only [List.length_append]; omega)
              exact ⟨(List.prefix_append _ _).trans a1, a2, a3, a4⟩
    · split at h
      · cases h
      · rename_i r1 q1 hd
        simp only [Out.done.injEq] at h
        obtain ⟨-, rfl, rfl, -⟩ := h
        obtain ⟨a1, a2, a3⟩ := pass_done_text f hf _ _ _ _ _ hd
        refine ⟨List.prefix_refl _, a1, ?_, a3⟩
        rw [List.length_drop] at a2
        omega
      · split at h
        · cases h
        · exact ih _ _ _ _ _ _ _ _ h hp

/-- C65. However a request arrives, if its head is accepted, every byte of the head is printable ASCII, DEL or part of a line break: control
characters and bytes above 127 never reach a handler as part of a method, target or header field. -/
theorem c65_text_only (n : Nat) (rx : List Rx) (r : Req) (buf : List UInt8) (pos : Nat) (rest : List Rx)
    (h : head n {} [] 0 rx = .done r buf pos rest) : pos ≤ buf.length ∧ ∀ b ∈ buf.take pos, HeadByte b := by
  unfold head at h
  split at h
  · rename_i r1 buf1 p1 rest1 h1
    obtain ⟨-, a2, a3, a4⟩ := loop_done_text lineByte (by intro r p b hb; simp [lineByte, hb]) _ _ _ _ _ _ _ _ _ h1 (by simp)
    obtain ⟨b1, b2, b3, b4⟩ := loop_done_text hdrByte (by intro r p b hb; simp [hdrByte, hb]) _ _ _ _ _ _ _ _ _ h a3
    refine ⟨b3, ?_⟩
    intro b hb
    obtain ⟨t, rfl⟩ := b1
    rw [show pos = p1 + (pos - p1) by omega, List.take_add] at hb
    rcases List.mem_append.mp hb with hb | hb
    · apply a4
      rw [List.take_append_of_le_length a3] at hb
      simpa using hb
    · exact b4 b hb
  · rename_i o hno
    exact absurd h (hno _ _ _ _)

/-- Non-trivial case: a head that is accepted. -/
example : (head 3 {} [] 0 (oneRx (line0 ++ [65, 58, 48, 13, 10, 13, 10]))).fieldsOf = some [([65], [48])] := by decide +kernel

/-! ### C66 -/

/-- The whole request: head and body. -/
def request (n : Nat) (rx : List Rx) : Option Pay :=
  match head n {} [] 0 rx with
  | .done r buf pos rest => some (body buf r pos rest)
  | _ => none

theorem clen_eq : sClen = contentLength := rfl

theorem request_eq (h : Head) (ok : h.Ok) (extra : List UInt8) (hl : (h.bytes ++ extra).length ≤ 4096)
    (b : UInt8) (bs : List UInt8) (hb : h.bytes ++ extra = b :: bs) (n : Nat) (rx : List Rx) :
    ∃ more : Nat → List UInt8, request (n + 1) (.data b bs :: rx) =
      match bodyLen 0 (h.fields.zipIdx.map fun f => (f.1.name, f.1.value ++ 13 :: more f.2)) with
      | none => some .err
      | some k => some (payload k extra rx) := by
  obtain ⟨r, h1, -, more, h2⟩ := head_tails h ok extra hl b bs hb n rx
  refine ⟨more, ?_⟩
  simp only [request]
  rw [h1]
  simp only [body]
  rw [h2]
  cases bodyLen 0 (h.fields.zipIdx.map fun f => (f.1.name, f.1.value ++ 13 :: more f.2)) with
  | none => rfl
  | some k => simp

theorem zip_split (pre post : List Field) (f : Field) (more : Nat → List UInt8) :
    ∃ (l r : List (List UInt8 × List UInt8)) (m : List UInt8),
      ((pre ++ f :: post).zipIdx.map fun f => (f.1.name, f.1.value ++ 13 :: more f.2)) = l ++ (f.name, f.value ++ 13 :: m) :: r ∧
      (∀ kv ∈ l, ∃ g ∈ pre, kv.1 = g.name) ∧ ∀ kv ∈ r, ∃ g ∈ post, kv.1 = g.name := by
  refine ⟨pre.zipIdx.map fun f => (f.1.name, f.1.value ++ 13 :: more f.2),
    (post.zipIdx (pre.length + 1)).map fun f => (f.1.name, f.1.value ++ 13 :: more f.2), more pre.length, ?_, ?_, ?_⟩
  · simp [List.zipIdx_append, List.zipIdx_cons]
  · intro kv hkv
    obtain ⟨x, hx, rfl⟩ := List.mem_map.mp hkv
    exact ⟨x.1, (List.mem_zipIdx' hx).2 ▸ List.getElem_mem _, rfl⟩
  · intro kv hkv
    obtain ⟨x, hx, rfl⟩ := List.mem_map.mp hkv
    exact ⟨x.1, List.fst_mem_of_mem_zipIdx hx, rfl⟩

/-- A name that the search takes for `Content-Length`. -/
def Clen (name : List UInt8) : Prop := SameName name contentLength ∨ Abbreviates name contentLength

theorem clen_iff (a : List UInt8) : ncaseEq a sClen = true ↔ Clen a := by rw [ncaseEq_iff, clen_eq]; rfl

theorem clen_false {a : List UInt8} (h : ¬ Clen a) : ncaseEq a sClen = false := by
  rw [← clen_iff] at h; simpa using h

/-- The general form: one field taken for the length, with digits up to something else. -/
theorem request_len (h : Head) (ok : h.Ok) (extra : List UInt8) (hl : (h.bytes ++ extra).length ≤ 4096)
    (b : UInt8) (bs : List UInt8) (hb : h.bytes ++ extra = b :: bs) (n : Nat) (rx : List Rx) (pre post : List Field) (f : Field)
    (hf : h.fields = pre ++ f :: post) (hname : Clen f.name) (hpre : ∀ g ∈ pre ++ post, ¬ Clen g.name)
    (k : Nat) (hk : k ≤ 10485760) (hv : ∀ m, toInt (strtol (f.value ++ 13 :: m)) = k) :
    request (n + 1) (.data b bs :: rx) = some (payload k extra rx) := by
  obtain ⟨more, h1⟩ := request_eq h ok extra hl b bs hb n rx
  obtain ⟨l, r, m, h2, h3, h4⟩ := zip_split pre post f more
  rw [h1, hf, h2, bodyLen_one l r f.name _ ?_ ?_ ((clen_iff _).mpr hname) k (hv m) hk]
  · intro kv hkv
    obtain ⟨g, hg, e⟩ := h3 kv hkv
    rw [e]; exact clen_false (hpre g (List.mem_append_left _ hg))
  · intro kv hkv
    obtain ⟨g, hg, e⟩ := h4 kv hkv
    rw [e]; exact clen_false (hpre g (List.mem_append_right _ hg))

theorem request_refused (h : Head) (ok : h.Ok) (extra : List UInt8) (hl : (h.bytes ++ extra).length ≤ 4096)
    (b : UInt8) (bs : List UInt8) (hb : h.bytes ++ extra = b :: bs) (n : Nat) (rx : List Rx) (pre post : List Field) (f : Field)
    (hf : h.fields = pre ++ f :: post) (hname : Clen f.name) (hpre : ∀ g ∈ pre, ¬ Clen g.name)
    (hv : ∀ m, toInt (strtol (f.value ++ 13 :: m)) < 0 ∨ 10485760 < toInt (strtol (f.value ++ 13 :: m))) :
    request (n + 1) (.data b bs :: rx) = some .err := by
  obtain ⟨more, h1⟩ := request_eq h ok extra hl b bs hb n rx
  obtain ⟨l, r, m, h2, h3, h4⟩ := zip_split pre post f more
  rw [h1, hf, h2, bodyLen_refused l r f.name _ ?_ ((clen_iff _).mpr hname) (hv m)]
  intro kv hkv
  obtain ⟨g, hg, e⟩ := h3 kv hkv
  rw [e]; exact clen_false (hpre g hg)

theorem value_digits {v : List UInt8} (hv : Digits v) (m : List UInt8) :
    strtol (v ++ 13 :: m) = min (decimal v : Int) 9223372036854775807 :=
  strtol_digits v _ hv (by intro c hc; simp at hc; subst hc; decide)

theorem payload_stream (n : Nat) (extra : List UInt8) (rx : List Rx) (hd : ∀ x ∈ rx, ∃ b bs, x = .data b bs) (hg : extra.length ≤ n) :
    if n ≤ (extra ++ rxBytes rx).length then
      ∃ rest, payload n extra rx = .ok ((extra ++ rxBytes rx).take n) rest ∧ rxBytes rest = (extra ++ rxBytes rx).drop n
    else payload n extra rx = .wait (extra ++ rxBytes rx) := by
  by_cases h0 : n = 0
  · subst h0
    have : extra = [] := by cases extra with
      | nil => rfl
      | cons a b => simp at hg
    subst this
    simp [payload]
  · have := c32_payload_partial n extra rx hd hg
    have e : payload n extra rx = payLoop n extra rx := by
      unfold payload
      rw [if_pos (by omega), if_neg (by omega)]
    rw [e]
    exact this

/-- C66 (one length field, no abbreviated names, no bytes beyond the body in the first segment). The body of a request with the field
`Content-Length: N` (in any case) with `N` up to 10 MiB is exactly the `N` bytes behind the head, however they arrive; with fewer bytes the
server waits, and what follows stays in the socket.
Missing from the full statement: abbreviated names, lengths of 2^32 and more, and values that are not numbers, which the code misreads, and
segments with more than `N` bytes behind the head, which close the connection (counterexamples below). -/
theorem c66_announced_partial (h : Head) (ok : h.Ok) (pre post : List Field) (f : Field) (hf : h.fields = pre ++ f :: post)
    (hname : SameName f.name contentLength) (hval : Digits f.value) (hmax : decimal f.value ≤ 10485760)
    (hother : ∀ g ∈ pre ++ post, ¬ SameName g.name contentLength ∧ ¬ Abbreviates g.name contentLength)
    (extra : List UInt8) (hl : (h.bytes ++ extra).length ≤ 4096) (hextra : extra.length ≤ decimal f.value)
    (b : UInt8) (bs : List UInt8) (hb : h.bytes ++ extra = b :: bs) (n : Nat)
    (rx : List Rx) (hd : ∀ x ∈ rx, ∃ b bs, x = .data b bs) :
    if decimal f.value ≤ (extra ++ rxBytes rx).length then
      ∃ rest, request (n + 1) (.data b bs :: rx) = some (.ok ((extra ++ rxBytes rx).take (decimal f.value)) rest) ∧
        rxBytes rest = (extra ++ rxBytes rx).drop (decimal f.value)
    else request (n + 1) (.data b bs :: rx) = some (.wait (extra ++ rxBytes rx)) := by
  have key := request_len h ok extra hl b bs hb n rx pre post f hf (Or.inl hname)
    (fun g hg hc => hc.elim (hother g hg).1 (hother g hg).2) (decimal f.value) hmax (by
      intro m
      rw [value_digits hval, show min (decimal f.value : Int) 9223372036854775807 = (decimal f.value : Int) by omega]
      exact toInt_small (by omega))
  have := payload_stream (decimal f.value) extra rx hd hextra
  rw [key]
  split
  · rename_i hle
    rw [if_pos hle] at this
    obtain ⟨rest, e1, e2⟩ := this
    exact ⟨rest, by rw [e1], e2⟩
  · rename_i hle
    rw [if_neg hle] at this
    rw [this]

/-- C66: blank, tab, line feed, vertical tab, form feed and carriage return in front of the number do not count. -/
theorem c66_white_space (ws s : List UInt8) (h : ∀ b ∈ ws, b ∈ ([32, 9, 10, 11, 12, 13] : List UInt8)) : strtol (ws ++ s) = strtol s := by
  have e : (ws ++ s).dropWhile isSpace = s.dropWhile isSpace := by
    induction ws with
    | nil => rfl
    | cons b ws ih =>
      have hb : isSpace b = true := by
        have := h b (by simp)
        simp only [List.mem_cons, List.not_mem_nil, or_false] at this
        rcases this with rfl | rfl | rfl | rfl | rfl | rfl <;> decide
      rw [List.cons_append, List.dropWhile_cons_of_pos hb]
      exact ih fun c hc => h c (List.mem_cons_of_mem _ hc)
  unfold strtol
  rw [e]

/-- The number of a folded line: carriage return, line feed, blank and `12`. -/
example : strtol ([13, 10, 32] ++ [49, 50, 13, 10]) = 12 := by
  rw [c66_white_space _ _ (by decide)]; decide

/-- C66, no length: a request without a field named or abbreviating `Content-Length` has no body, whatever follows. -/
theorem c66_absent (h : Head) (ok : h.Ok)
    (hother : ∀ g ∈ h.fields, ¬ SameName g.name contentLength ∧ ¬ Abbreviates g.name contentLength)
    (extra : List UInt8) (hl : (h.bytes ++ extra).length ≤ 4096)
    (b : UInt8) (bs : List UInt8) (hb : h.bytes ++ extra = b :: bs) (n : Nat) (rx : List Rx) :
    request (n + 1) (.data b bs :: rx) = some (.ok [] rx) := by
  obtain ⟨more, h1⟩ := request_eq h ok extra hl b bs hb n rx
  have := bodyLen_skip (h.fields.zipIdx.map fun f => (f.1.name, f.1.value ++ 13 :: more f.2)) [] (by
    intro kv hkv
    obtain ⟨x, hx, rfl⟩ := List.mem_map.mp hkv
    have hm := List.fst_mem_of_mem_zipIdx hx
    exact clen_false (fun hc => hc.elim (hother _ hm).1 (hother _ hm).2)) 0
  rw [List.append_nil] at this
  rw [h1, this]
  simp [bodyLen, payload]

/-- C66, limit: lengths above 10 MiB, up to 2^31 - 1, are refused. -/
theorem c66_limit (h : Head) (ok : h.Ok) (pre post : List Field) (f : Field) (hf : h.fields = pre ++ f :: post)
    (hname : SameName f.name contentLength) (hval : Digits f.value) (hmin : 10485760 < decimal f.value)
    (hmax : decimal f.value < 2147483648)
    (hother : ∀ g ∈ pre, ¬ SameName g.name contentLength ∧ ¬ Abbreviates g.name contentLength)
    (extra : List UInt8) (hl : (h.bytes ++ extra).length ≤ 4096)
    (b : UInt8) (bs : List UInt8) (hb : h.bytes ++ extra = b :: bs) (n : Nat) (rx : List Rx) :
    request (n + 1) (.data b bs :: rx) = some .err := by
  refine request_refused h ok extra hl b bs hb n rx pre post f hf (Or.inl hname)
    (fun g hg hc => hc.elim (hother g hg).1 (hother g hg).2) ?_
  intro m
  right
  rw [value_digits hval, show min (decimal f.value : Int) 9223372036854775807 = (decimal f.value : Int) by omega, toInt_small hmax]
  omega

/-- C66, negative lengths are refused. -/
theorem c66_negative (h : Head) (ok : h.Ok) (pre post : List Field) (f : Field) (hf : h.fields = pre ++ f :: post)
    (hname : SameName f.name contentLength) (d : List UInt8) (hv : f.value = 45 :: d) (hval : Digits d) (hmin : 0 < decimal d)
    (hmax : decimal d ≤ 2147483648)
    (hother : ∀ g ∈ pre, ¬ SameName g.name contentLength ∧ ¬ Abbreviates g.name contentLength)
    (extra : List UInt8) (hl : (h.bytes ++ extra).length ≤ 4096)
    (b : UInt8) (bs : List UInt8) (hb : h.bytes ++ extra = b :: bs) (n : Nat) (rx : List Rx) :
    request (n + 1) (.data b bs :: rx) = some .err := by
  refine request_refused h ok extra hl b bs hb n rx pre post f hf (Or.inl hname)
    (fun g hg hc => hc.elim (hother g hg).1 (hother g hg).2) ?_
  intro m
  left
  rw [hv, List.cons_append, strtol_minus d _ hval (by intro c hc; simp at hc; subst hc; decide)]
  rw [show max (-(decimal d : Int)) (-9223372036854775808) = -(decimal d : Int) by omega]
  unfold toInt
  omega

/-- C66 counterexample, wrap-around: a length of `k · 2^32 + m` is taken for `m`. With `m` bytes behind the head the request counts as
complete. -/
theorem c66_wrap_counterexample (h : Head) (ok : h.Ok) (pre post : List Field) (f : Field) (hf : h.fields = pre ++ f :: post)
    (hname : SameName f.name contentLength) (hval : Digits f.value) (k m : Nat) (hm : m ≤ 10485760)
    (hnum : decimal f.value = k * 4294967296 + m) (hlong : decimal f.value < 9223372036854775808)
    (hother : ∀ g ∈ pre ++ post, ¬ SameName g.name contentLength ∧ ¬ Abbreviates g.name contentLength)
    (extra : List UInt8) (hl : (h.bytes ++ extra).length ≤ 4096) (hextra : extra.length = m)
    (b : UInt8) (bs : List UInt8) (hb : h.bytes ++ extra = b :: bs) (n : Nat) (rx : List Rx) :
    request (n + 1) (.data b bs :: rx) = some (.ok extra rx) := by
  rw [request_len h ok extra hl b bs hb n rx pre post f hf (Or.inl hname)
    (fun g hg hc => hc.elim (hother g hg).1 (hother g hg).2) m hm (by
      intro x
      rw [value_digits hval, show min (decimal f.value : Int) 9223372036854775807 = (decimal f.value : Int) by omega, hnum]
      exact toInt_wrap (by omega))]
  subst hextra
  cases extra with
  | nil => simp [payload]
  | cons a l =>
    simp only [payload, List.length_cons]
    rw [if_pos (by omega), if_neg (by omega), payLoop.eq_def]
    simp

/-- C66 counterexample, abbreviated name: a field whose name is a proper prefix of `Content-Length`, such as `C`, announces the length. -/
theorem c66_abbreviated_counterexample (h : Head) (ok : h.Ok) (pre post : List Field) (f : Field) (hf : h.fields = pre ++ f :: post)
    (hname : Abbreviates f.name contentLength) (hval : Digits f.value) (hmax : decimal f.value ≤ 10485760)
    (hother : ∀ g ∈ pre ++ post, ¬ SameName g.name contentLength ∧ ¬ Abbreviates g.name contentLength)
    (extra : List UInt8) (hl : (h.bytes ++ extra).length ≤ 4096) (hextra : extra.length < decimal f.value)
    (b : UInt8) (bs : List UInt8) (hb : h.bytes ++ extra = b :: bs) (n : Nat) :
    request (n + 1) (.data b bs :: []) = some (.wait extra) := by
  rw [request_len h ok extra hl b bs hb n [] pre post f hf (Or.inr hname)
    (fun g hg hc => hc.elim (hother g hg).1 (hother g hg).2) (decimal f.value) hmax (by
      intro x
      rw [value_digits hval, show min (decimal f.value : Int) 9223372036854775807 = (decimal f.value : Int) by omega]
      exact toInt_small (by omega))]
  unfold payload
  rw [if_pos (by omega), if_neg (by omega), payLoop.eq_def]
  simp [hextra]

/-- C66 counterexample, no number: a value of digits followed by anything else, such as `5x`, is taken for the number the digits denote. -/
theorem c66_garbage_counterexample (h : Head) (ok : h.Ok) (pre post : List Field) (f : Field) (hf : h.fields = pre ++ f :: post)
    (hname : SameName f.name contentLength) (d junk : List UInt8) (c : UInt8) (hv : f.value = d ++ c :: junk) (hval : Digits d)
    (hc : ¬ (48 ≤ c.toNat ∧ c.toNat ≤ 57)) (hmax : decimal d ≤ 10485760)
    (hother : ∀ g ∈ pre ++ post, ¬ SameName g.name contentLength ∧ ¬ Abbreviates g.name contentLength)
    (extra : List UInt8) (hl : (h.bytes ++ extra).length ≤ 4096) (hextra : extra.length = decimal d)
    (b : UInt8) (bs : List UInt8) (hb : h.bytes ++ extra = b :: bs) (n : Nat) (rx : List Rx) :
    request (n + 1) (.data b bs :: rx) = some (.ok extra rx) := by
  rw [request_len h ok extra hl b bs hb n rx pre post f hf (Or.inl hname)
    (fun g hg hc => hc.elim (hother g hg).1 (hother g hg).2) (decimal d) hmax (by
      intro x
      rw [hv, List.append_assoc, strtol_digits d _ hval (by intro c' hc'; simp at hc'; subst hc'; exact hc),
        show min (decimal d : Int) 9223372036854775807 = (decimal d : Int) by omega]
      exact toInt_small (by omega))]
  rw [← hextra]
  cases extra with
  | nil => simp [payload]
  | cons a l =>
    simp only [payload, List.length_cons]
    rw [if_pos (by omega), if_neg (by omega), payLoop.eq_def]
    simp

/-- C66 counterexample, pipelining: if the segment with the head holds more than the announced body, for instance the start of the next
request, the connection is closed. -/
theorem c66_pipelined_counterexample (h : Head) (ok : h.Ok) (pre post : List Field) (f : Field) (hf : h.fields = pre ++ f :: post)
    (hname : SameName f.name contentLength) (hval : Digits f.value) (hmax : decimal f.value ≤ 10485760) (hpos : 0 < decimal f.value)
    (hother : ∀ g ∈ pre ++ post, ¬ SameName g.name contentLength ∧ ¬ Abbreviates g.name contentLength)
    (extra : List UInt8) (hl : (h.bytes ++ extra).length ≤ 4096) (hextra : decimal f.value < extra.length)
    (b : UInt8) (bs : List UInt8) (hb : h.bytes ++ extra = b :: bs) (n : Nat) (rx : List Rx) :
    request (n + 1) (.data b bs :: rx) = some .err := by
  rw [request_len h ok extra hl b bs hb n rx pre post f hf (Or.inl hname)
    (fun g hg hc => hc.elim (hother g hg).1 (hother g hg).2) (decimal f.value) hmax (by
      intro x
      rw [value_digits hval, show min (decimal f.value : Int) 9223372036854775807 = (decimal f.value : Int) by omega]
      exact toInt_small (by omega))]
  unfold payload
  rw [if_pos (by omega), if_pos (by omega)]

/-- `content-LENGTH: ` with a value. -/
def lengthField (v : List UInt8) : Field :=
  ⟨[99, 111, 110, 116, 101, 110, 116, 45, 76, 69, 78, 71, 84, 72], 1, v⟩

/-- `POST /a HTTP/1.1` with the fields `Host: x` and `content-LENGTH: v`. -/
def samplePost (v : List UInt8) : Head :=
  ⟨[80, 79, 83, 84], [47, 97], [72, 84, 84, 80, 47, 49, 46, 49], [⟨[72, 111, 115, 116], 1, [120]⟩, lengthField v]⟩

theorem samplePost_ok (v : List UInt8) (h1 : v ≠ []) (h2 : Text v) (h3 : v.head? ≠ some 32) : (samplePost v).Ok := by
  refine ⟨⟨by simp [samplePost], by simp [samplePost], ?_, by simp [samplePost]⟩, ⟨[97], rfl, ?_, by decide⟩,
    ⟨by simp [samplePost], ?_⟩, by simp [samplePost], ?_⟩
  · unfold Text; simp [samplePost]
  · unfold Text; decide
  · unfold Text; simp [samplePost]
  · intro f hf
    simp only [samplePost, List.mem_cons, List.not_mem_nil, or_false] at hf
    rcases hf with rfl | rfl
    · refine ⟨by decide, ?_, by decide, by decide, ?_, by decide⟩
      · unfold Text; decide
      · unfold Text; decide
    · refine ⟨by simp [lengthField], ?_, by simp [lengthField], h1, h2, h3⟩
      unfold Text; simp [lengthField]

theorem host_not_length : ¬ Clen [72, 111, 115, 116] := by
  rw [← clen_iff]; decide

theorem sample_other : ∀ g ∈ [(⟨[72, 111, 115, 116], 1, [120]⟩ : Field)] ++ [],
    ¬ SameName g.name contentLength ∧ ¬ Abbreviates g.name contentLength := by
  intro g hg
  simp only [List.append_nil, List.mem_singleton] at hg
  subst hg
  exact ⟨fun h => host_not_length (Or.inl h), fun h => host_not_length (Or.inr h)⟩

/-- Non-trivial case for C66: `content-LENGTH: 12`, eight bytes behind the head. -/
example (extra : List UInt8) (he : extra.length = 8) :
    (samplePost [49, 50]).Ok ∧ SameName (lengthField [49, 50]).name contentLength ∧ Digits (lengthField [49, 50]).value ∧
      decimal (lengthField [49, 50]).value = 12 ∧ (samplePost [49, 50]).fields = [⟨[72, 111, 115, 116], 1, [120]⟩] ++ lengthField [49, 50] :: [] ∧
      extra.length ≤ decimal (lengthField [49, 50]).value := by
  refine ⟨samplePost_ok _ (by decide) (by unfold Text; decide) (by decide), by unfold SameName; decide, ?_, by decide, rfl, ?_⟩
  · unfold Digits lengthField; decide
  · rw [he]; decide

/-- Non-trivial case for the wrap-around: `4294967299` is 2^32 + 3. -/
example : Digits [52, 50, 57, 52, 57, 54, 55, 50, 57, 57] ∧
    decimal [52, 50, 57, 52, 57, 54, 55, 50, 57, 57] = 1 * 4294967296 + 3 := by
  unfold Digits; decide

/-- Non-trivial case for the abbreviated name: `c`. -/
example : Abbreviates [99] contentLength := ⟨[67], by decide, by decide, by unfold SameName; decide⟩

/-- Case for `c66_announced_partial`: `content-LENGTH: 3`, one byte with the head, then one, then two: the body is the first three bytes, and one
byte is left. -/
example (n : Nat) : ∃ rest, request (n + 1) [.data 80 ((samplePost [51]).bytes.tail ++ [1]), .data 2 [], .data 3 [4]] = some (.ok [1, 2, 3] rest) ∧
    rxBytes rest = [4] :=
  c66_announced_partial (samplePost [51]) (samplePost_ok _ (by decide) (by unfold Text; decide) (by decide)) [⟨[72, 111, 115, 116], 1, [120]⟩] []
    (lengthField [51]) rfl (by unfold SameName; decide) (by unfold Digits lengthField; decide) (by decide) sample_other [1] (by decide) (by decide) 80 _ rfl n
    [.data 2 [], .data 3 [4]] (by intro x hx; simp only [List.mem_cons, List.not_mem_nil, or_false] at hx; rcases hx with rfl | rfl <;> exact ⟨_, _, rfl⟩)

/-- Case for `c66_absent`: `GET /a HTTP/1.1` with `Host: x` only. -/
example (n : Nat) (rx : List Rx) : request (n + 1) (.data 71 sampleHead.bytes.tail :: rx) = some (.ok [] rx) :=
  c66_absent sampleHead sampleHead_ok sample_other [] (by decide) 71 _ rfl n rx

/-- Case for `c66_limit`: `content-LENGTH: 10485761`. -/
example (n : Nat) (rx : List Rx) : request (n + 1) (.data 80 (samplePost [49, 48, 52, 56, 53, 55, 54, 49]).bytes.tail :: rx) = some .err :=
  c66_limit (samplePost [49, 48, 52, 56, 53, 55, 54, 49]) (samplePost_ok _ (by decide) (by unfold Text; decide) (by decide))
    [⟨[72, 111, 115, 116], 1, [120]⟩] [] (lengthField [49, 48, 52, 56, 53, 55, 54, 49]) rfl (by unfold SameName; decide)
    (by unfold Digits lengthField; decide) (by decide) (by decide) sample_other [] (by decide) 80 _ rfl n rx

/-- Case for `c66_negative`: `content-LENGTH: -5`. -/
example (n : Nat) (rx : List Rx) : request (n + 1) (.data 80 (samplePost [45, 53]).bytes.tail :: rx) = some .err :=
  c66_negative (samplePost [45, 53]) (samplePost_ok _ (by decide) (by unfold Text; decide) (by decide)) [⟨[72, 111, 115, 116], 1, [120]⟩] []
    (lengthField [45, 53]) rfl (by unfold SameName; decide) [53] rfl (by unfold Digits; decide) (by decide) (by decide) sample_other [] (by decide) 80 _ rfl n rx

/-- Case for `c66_wrap_counterexample`: with `content-LENGTH: 4294967299` three bytes are taken for the body. -/
example (n : Nat) (rx : List Rx) :
    request (n + 1) (.data 80 ((samplePost [52, 50, 57, 52, 57, 54, 55, 50, 57, 57]).bytes.tail ++ [1, 2, 3]) :: rx) = some (.ok [1, 2, 3] rx) :=
  c66_wrap_counterexample (samplePost [52, 50, 57, 52, 57, 54, 55, 50, 57, 57]) (samplePost_ok _ (by decide) (by unfold Text; decide) (by decide))
    [⟨[72, 111, 115, 116], 1, [120]⟩] [] (lengthField [52, 50, 57, 52, 57, 54, 55, 50, 57, 57]) rfl (by unfold SameName; decide)
    (by unfold Digits lengthField; decide) 1 3 (by decide) (by decide) (by decide) sample_other [1, 2, 3] (by decide) rfl 80 _ rfl n rx

/-- Case for `c66_abbreviated_counterexample`: `GET /a HTTP/1.1` with the field `c: 5` waits for five bytes. -/
example (n : Nat) : request (n + 1) [.data 71 (Head.bytes ⟨[71, 69, 84], [47, 97], [72, 84, 84, 80, 47, 49, 46, 49], [⟨[99], 1, [53]⟩]⟩).tail] = some (.wait []) :=
  c66_abbreviated_counterexample ⟨[71, 69, 84], [47, 97], [72, 84, 84, 80, 47, 49, 46, 49], [⟨[99], 1, [53]⟩]⟩ (by
    refine ⟨⟨by decide, by decide, by unfold Text; decide, by decide⟩, ⟨[97], rfl, by unfold Text; decide, by decide⟩,
      ⟨by decide, by unfold Text; decide⟩, by decide, ?_⟩
    intro f hf
    rw [List.mem_singleton.mp hf]
    exact ⟨by decide, by unfold Text; decide, by decide, by decide, by unfold Text; decide, by decide⟩) [] [] ⟨[99], 1, [53]⟩ rfl
    ⟨[67], by decide, by decide, by unfold SameName; decide⟩ (by unfold Digits; decide) (by decide) (by intro g hg; cases hg) [] (by decide) (by decide) 71 _ rfl n

/-- Case for `c66_garbage_counterexample`: `content-LENGTH: 2x`. -/
example (n : Nat) (rx : List Rx) : request (n + 1) (.data 80 ((samplePost [50, 120]).bytes.tail ++ [1, 2]) :: rx) = some (.ok [1, 2] rx) :=
  c66_garbage_counterexample (samplePost [50, 120]) (samplePost_ok _ (by decide) (by unfold Text; decide) (by decide)) [⟨[72, 111, 115, 116], 1, [120]⟩] []
    (lengthField [50, 120]) rfl (by unfold SameName; decide) [50] [] 120 rfl (by unfold Digits; decide) (by decide) (by decide) sample_other [1, 2] (by decide) rfl
    80 _ rfl n rx

/-- Case for `c66_pipelined_counterexample`: one byte announced, two there. -/
example (n : Nat) (rx : List Rx) : request (n + 1) (.data 80 ((samplePost [49]).bytes.tail ++ [1, 2]) :: rx) = some .err :=
  c66_pipelined_counterexample (samplePost [49]) (samplePost_ok _ (by decide) (by unfold Text; decide) (by decide)) [⟨[72, 111, 115, 116], 1, [120]⟩] []
    (lengthField [49]) rfl (by unfold SameName; decide) (by unfold Digits lengthField; decide) (by decide) (by decide) sample_other [1, 2] (by decide) (by decide)
    80 _ rfl n rx

/-! ### C67 -/

/-- C67 (what counts as keep-alive). For a request whose head arrives in one piece, the connection is kept open exactly if a field whose name is
`Connection`, up to case or abbreviation, has the value `keep-alive`, up to case or abbreviation. -/
theorem c67_iff (h : Head) (ok : h.Ok) (extra : List UInt8) (hl : (h.bytes ++ extra).length ≤ 4096)
    (b : UInt8) (bs : List UInt8) (hb : h.bytes ++ extra = b :: bs) (n : Nat) (rx : List Rx) :
    ∃ r, head (n + 1) {} [] 0 (.data b bs :: rx) = .done r (h.bytes ++ extra) h.bytes.length rx ∧
      (keepAlive (fields (h.bytes ++ extra) r) = true ↔
        ∃ f ∈ h.fields, (SameName f.name connection ∨ Abbreviates f.name connection) ∧
          (SameName f.value keepAliveText ∨ Abbreviates f.value keepAliveText)) := by
  obtain ⟨r, h1, h2, -⟩ := head_tails h ok extra hl b bs hb n rx
  refine ⟨r, h1, ?_⟩
  rw [h2]
  have hk : ∀ a : List UInt8, (SameName a sKeep ∨ Abbreviates a sKeep) ↔ (SameName a keepAliveText ∨ Abbreviates a keepAliveText) := by
    have : ∀ a b, ncaseEq a b = ncaseEq a (b.map lower) := by
      intro a
      induction a with
      | nil => intro b; cases b <;> rfl
      | cons x a ih =>
        intro b
        cases b with
        | nil => rfl
        | cons y b =>
          simp only [ncaseEq, List.map_cons, ih b]
          have : lower (lower y) = lower y := by
            apply UInt8.toNat_inj.mp
            rw [lower_nat, lower_nat]
            split <;> grind
          rw [this]
    intro a
    rw [← ncaseEq_iff, ← ncaseEq_iff, this a sKeep, this a keepAliveText]
    rfl
  unfold keepAlive
  rw [List.any_eq_true]
  constructor
  · rintro ⟨kv, hkv, hh⟩
    obtain ⟨f, hf, rfl⟩ := List.mem_map.mp hkv
    rw [Bool.and_eq_true] at hh
    exact ⟨f, hf, (ncaseEq_iff _ _).mp hh.1, (hk _).mp ((ncaseEq_iff _ _).mp hh.2)⟩
  · rintro ⟨f, hf, ha, hb⟩
    refine ⟨(f.name, f.value), List.mem_map.mpr ⟨f, hf, rfl⟩, ?_⟩
    rw [Bool.and_eq_true]
    exact ⟨(ncaseEq_iff _ _).mpr ha, (ncaseEq_iff _ _).mpr ((hk _).mpr hb)⟩

/-- C67 (no abbreviations). If no field name or value is an abbreviation, the connection is kept open exactly if the request says
`Connection: keep-alive` in some case. Missing: abbreviations, for which this is false (counterexample below). -/
theorem c67_keep_alive_partial (h : Head) (ok : h.Ok) (extra : List UInt8) (hl : (h.bytes ++ extra).length ≤ 4096)
    (hab : ∀ f ∈ h.fields, ¬ Abbreviates f.name connection ∧ ¬ Abbreviates f.value keepAliveText)
    (b : UInt8) (bs : List UInt8) (hb : h.bytes ++ extra = b :: bs) (n : Nat) (rx : List Rx) :
    ∃ r, head (n + 1) {} [] 0 (.data b bs :: rx) = .done r (h.bytes ++ extra) h.bytes.length rx ∧
      (keepAlive (fields (h.bytes ++ extra) r) = true ↔
        ∃ f ∈ h.fields, SameName f.name connection ∧ SameName f.value keepAliveText) := by
  obtain ⟨r, h1, h2⟩ := c67_iff h ok extra hl b bs hb n rx
  refine ⟨r, h1, h2.trans ?_⟩
  constructor
  · rintro ⟨f, hf, ha, hv⟩
    exact ⟨f, hf, ha.resolve_right (hab f hf).1, hv.resolve_right (hab f hf).2⟩
  · rintro ⟨f, hf, ha, hv⟩
    exact ⟨f, hf, Or.inl ha, Or.inl hv⟩

/-- Non-trivial case for C67 (`c67_iff`, `c67_keep_alive_partial`): the field `connection: Keep-alive`; `Host: x` abbreviates neither. -/
example : SameName [99, 111, 110, 110, 101, 99, 116, 105, 111, 110] connection ∧
    SameName [75, 101, 101, 112, 45, 97, 108, 105, 118, 101] keepAliveText ∧ ¬ Abbreviates [72, 111, 115, 116] connection := by
  refine ⟨by unfold SameName; decide, by unfold SameName; decide, fun h => ?_⟩
  have : ncaseEq [72, 111, 115, 116] connection = true := (ncaseEq_iff _ _).mpr (Or.inr h)
  exact absurd this (by decide)

/-- C67 counterexample: a field that merely abbreviates, such as `C: K`, keeps the connection open. -/
theorem c67_abbreviated_counterexample (h : Head) (ok : h.Ok) (extra : List UInt8) (hl : (h.bytes ++ extra).length ≤ 4096)
    (f : Field) (hf : f ∈ h.fields) (hn : Abbreviates f.name connection) (hv : Abbreviates f.value keepAliveText)
    (b : UInt8) (bs : List UInt8) (hb : h.bytes ++ extra = b :: bs) (n : Nat) (rx : List Rx) :
    ∃ r, head (n + 1) {} [] 0 (.data b bs :: rx) = .done r (h.bytes ++ extra) h.bytes.length rx ∧
      keepAlive (fields (h.bytes ++ extra) r) = true := by
  obtain ⟨r, h1, h2⟩ := c67_iff h ok extra hl b bs hb n rx
  exact ⟨r, h1, h2.mpr ⟨f, hf, Or.inr hn, Or.inr hv⟩⟩

/-- Non-trivial case: `C: K`. -/
example : Abbreviates [67] connection ∧ Abbreviates [75] keepAliveText :=
  ⟨⟨[67], by decide, by decide, by unfold SameName; decide⟩, ⟨[107], by decide, by decide, by unfold SameName; decide⟩⟩

/-! ### C36: the method -/

/-- C36 (what counts as which method): exactly `GET` and `POST`, up to case or abbreviation, are recognised. Common beginnings do not exist, so the
two cases exclude each other except for the empty method, which the parser does not produce. -/
theorem c36_method_iff (m : List UInt8) (hm : m ≠ []) :
    (methodTyp m = .get ↔ SameName m [71, 69, 84] ∨ Abbreviates m [71, 69, 84]) ∧
    (methodTyp m = .post ↔ SameName m [80, 79, 83, 84] ∨ Abbreviates m [80, 79, 83, 84]) := by
  rw [← ncaseEq_iff, ← ncaseEq_iff]
  have hex : ncaseEq m [71, 69, 84] = true → ncaseEq m [80, 79, 83, 84] = true → False := by
    cases m with
    | nil => exact absurd rfl hm
    | cons x m =>
      intro h1 h2
      simp only [ncaseEq, Bool.and_eq_true, decide_eq_true_eq] at h1 h2
      exact absurd (h1.1.symm.trans h2.1) (by decide)
  unfold methodTyp
  have e1 : sGet = [71, 69, 84] := rfl
  have e2 : sPost = [80, 79, 83, 84] := rfl
  rw [e1, e2]
  cases h1 : ncaseEq m [71, 69, 84] <;> cases h2 : ncaseEq m [80, 79, 83, 84]
  · simp
  · simp
  · simp
  · exact (hex h1 h2).elim

/-- Cases: `get` and `POST` are recognised, `PUT` is not. -/
example : methodTyp [103, 101, 116] = .get ∧ methodTyp [80, 79, 83, 84] = .post ∧ methodTyp [80, 85, 84] = .none := by decide

end Verif.Http
