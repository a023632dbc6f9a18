import Verif.Model.Peek
/-
Property C46: telling TLS from other traffic.
-/
namespace Verif.Peek

/-- The bytes that arrive before the stream ends or fails. -/
def arrives : List Ev → List UInt8
  | .arrive bs :: es => bs ++ arrives es
  | _ => []

/-- The stream ends or fails. -/
def ends : List Ev → Bool
  | [] => false
  | .arrive _ :: es => ends es
  | _ :: _ => true

/-- A first byte that TLS accepts: SSLv2 (high bit) or the handshake record type 22. -/
def tlsByte (b : UInt8) : Prop := b.toNat ≥ 128 ∨ b.toNat = 22

theorem byte_iff (b : UInt8) : (b &&& 0x80 = 0 ∧ b ≠ 0x16) ↔ ¬tlsByte b := by
  have h1 : b &&& 0x80 = 0 ↔ b.toNat < 128 := by
    have : ∀ x : Fin 256, (UInt8.ofNat x.val &&& 0x80 = 0) ↔ x.val < 128 := by decide +kernel
    have e := this ⟨b.toNat, b.toNat_lt⟩
    simpa using e
  have h2 : b ≠ 0x16 ↔ b.toNat ≠ 22 := by
    rw [Ne, ← UInt8.toNat_inj]; rfl
  rw [h1, h2, tlsByte]; omega

/-- C46: for every way the stream is cut into arrivals, the check waits until the first byte is there and decides by it alone; if the stream
ends or fails before any byte, the answer is no; without either, it keeps waiting. -/
theorem c46_decision (es : List Ev) :
    (watch ⟨[], false, false⟩ es).1 =
      match arrives es with
      | b :: _ => if b.toNat ≥ 128 ∨ b.toNat = 22 then .tls else .no
      | [] => if ends es then .no else .again := by
  have dec : ∀ (b : UInt8) (l : List UInt8) (es : List Ev) (x y : Bool), (watch ⟨b :: l, x, y⟩ es).1 =
      if b.toNat ≥ 128 ∨ b.toNat = 22 then .tls else .no := by
    intro b l es x y
    have : (check ⟨b :: l, x, y⟩).1 = if b.toNat ≥ 128 ∨ b.toNat = 22 then .tls else .no := by
      unfold check
      simp only
      by_cases h : tlsByte b
      · rw [if_neg (fun c => (byte_iff b).mp c h), if_pos (show b.toNat ≥ 128 ∨ b.toNat = 22 from h)]
      · rw [if_pos ((byte_iff b).mpr h), if_neg (show ¬(b.toNat ≥ 128 ∨ b.toNat = 22) from h)]
    cases es with
    | nil => exact this
    | cons e es =>
      unfold watch
      generalize hc : check ⟨b :: l, x, y⟩ = c at this
      obtain ⟨o, s⟩ := c
      cases o with
      | again => simp only at this; split at this <;> simp at this
      | tls => simpa using this
      | no => simpa using this
  induction es with
  | nil => simp [watch, check, arrives, ends]
  | cons e es ih =>
    have hc : check ⟨[], false, false⟩ = (.again, ⟨[], false, false⟩) := rfl
    unfold watch
    rw [hc]
    simp only
    cases e with
    | close =>
      have : (watch ⟨[], true, false⟩ es).1 = .no := by cases es <;> rfl
      simpa [apply, arrives, ends] using this
    | fail =>
      have : (watch ⟨[], false, true⟩ es).1 = .no := by cases es <;> rfl
      simpa [apply, arrives, ends] using this
    | arrive bs =>
      simp only [apply, Bool.false_eq_true, or_self, if_false, List.nil_append]
      cases bs with
      | nil =>
        rw [ih]
        show _ = match arrives es with
          | b :: _ => if b.toNat ≥ 128 ∨ b.toNat = 22 then Out.tls else Out.no
          | [] => if ends es then Out.no else Out.again
        cases arrives es <;> rfl
      | cons b l => rw [dec]; simp [arrives]

/-- C46: the check consumes nothing: the unread bytes are exactly those that arrived. -/
theorem c46_keeps (s : Sock) : (check s).2 = s := by
  unfold check; split
  · rfl
  · split
    · rfl
    · split <;> rfl

/-- Cases for C46 (`c46_decision`): a TLS hello in two pieces, a SOCKS greeting, an early close. -/
example : watch ⟨[], false, false⟩ [.arrive [], .arrive [0x16, 3], .arrive [1]] = (.tls, ⟨[0x16, 3], false, false⟩) := by decide
example : (watch ⟨[], false, false⟩ [.arrive [5, 1, 0]]).1 = .no := by decide
example : (watch ⟨[], false, false⟩ [.close]).1 = .no := by decide

/-- C46 is false of the code as far as telling the tunnel's own protocol apart goes: its header starts with the byte 0xa0 (the magic number
in network order), whose high bit is set, so it is taken for TLS, however it is cut. -/
theorem c46_secret_counterexample (x y z : UInt8) (rest : List UInt8) :
    (watch ⟨[], false, false⟩ [.arrive (0xa0 :: x :: y :: z :: rest)]).1 = .tls := by
  rw [c46_decision]; simp [arrives]

/-- Case: the header with the key `a`. -/
example : (watch ⟨[], false, false⟩ [.arrive [0xa0, 0x01, 0xbe, 0xef, 97]]).1 = .tls := c46_secret_counterexample _ _ _ _

end Verif.Peek
