import Verif.Model.TlsServe
/-
What a session of the server on top of TLS is measured against, and which histories are looked at.
-/
namespace Verif.Spec.TlsServe
open Verif Verif.TlsServe

/-- While the handshake goes on, no call of it waits for writability. -/
def HandshakeReads (admit : List UInt8 → Bool) : C → List Ev → Prop
  | _, [] => True
  | c, e :: es => (c.hs = true → e ≠ .call .waitW) ∧ HandshakeReads admit (step admit c e) es

/-- A client with the records it still has to send, each with the number of bytes it has to have received before, and a server: nothing fails, nothing expires, no
upstream connection is refused. `none`: the history is not one of these. -/
def playT (admit : List UInt8 → Bool) : List (List UInt8 × Nat) → C → List Ev → Option (List (List UInt8 × Nat) × C)
  | l, c, [] => some (l, c)
  | l, c, .arrive r :: es =>
    match l with
    | [] => none
    | (r', k) :: l' => if r = r' ∧ k ≤ c.ses.wire.length then playT admit l' (step admit c (.arrive r)) es else none
  | _, _, .refused :: _ => none
  | _, _, .expire :: _ => none
  | _, _, .call .fail :: _ => none
  | l, c, e :: es => playT admit l (step admit c e) es

/-- The records that arrived. -/
def records : List Ev → List (List UInt8)
  | [] => []
  | .arrive r :: es => r :: records es
  | _ :: es => records es

/-- The reply to the request is written without a wait. -/
def ReplyAtOnce (admit : List UInt8 → Bool) : C → List Ev → Prop
  | _, [] => True
  | c, e :: es => ((∃ u, c.ses.phase = .reply u) → e ≠ .call .waitR ∧ e ≠ .call .waitW) ∧ ReplyAtOnce admit (step admit c e) es

instance decHandshakeReads (admit : List UInt8 → Bool) : (c : C) → (es : List Ev) → Decidable (HandshakeReads admit c es)
  | _, [] => .isTrue trivial
  | c, e :: es =>
    have := decHandshakeReads admit (step admit c e) es
    by unfold HandshakeReads; infer_instance

instance (p : Serve.Phase) : Decidable (∃ u, p = .reply u) :=
  match p with
  | .reply u => .isTrue ⟨u, rfl⟩
  | .auth _ => .isFalse (by simp)
  | .greet _ _ => .isFalse (by simp)
  | .greetRsp _ => .isFalse (by simp)
  | .request _ _ => .isFalse (by simp)
  | .connect _ => .isFalse (by simp)
  | .relay => .isFalse (by simp)
  | .closed => .isFalse (by simp)
  | .crash => .isFalse (by simp)

instance decReplyAtOnce (admit : List UInt8 → Bool) : (c : C) → (es : List Ev) → Decidable (ReplyAtOnce admit c es)
  | _, [] => .isTrue trivial
  | c, e :: es =>
    have := decReplyAtOnce admit (step admit c e) es
    by unfold ReplyAtOnce; infer_instance

end Verif.Spec.TlsServe
