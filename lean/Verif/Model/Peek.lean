import Verif.Model.Recv
/-
`net_check_ssl_valid`: src/common/net.c:65-85.
-/
namespace Verif.Peek

/-- State of the receiving side of a socket: bytes that arrived and were not read, and whether the peer closed or the socket failed.
See src/common/net.c:65-85. -/
structure Sock where
  queue : List UInt8
  ended : Bool := false
  failed : Bool := false
deriving DecidableEq, Repr

/-- Return values 0, −1, −11. See src/common/net.c:65-85. -/
inductive Out where
  | tls
  | no
  | again
deriving DecidableEq, Repr

/-- `net_check_ssl_valid` (src/common/net.c:65-85): `recv(fd, &buf, 1, MSG_PEEK)`, which leaves the queue as it is. A queue that is not empty is
delivered before the end of the stream or a failure is reported. -/
def check (s : Sock) : Out × Sock :=
  match s.queue with
  | b :: _ => (if b &&& 0x80 = 0 ∧ b ≠ 0x16 then .no else .tls, s)
  | [] => if s.failed then (.no, s) else if s.ended then (.no, s) else (.again, s)

/-- Things that happen to a socket between calls. See src/common/net.c:65-85. -/
inductive Ev where
  | arrive (bs : List UInt8)
  | close
  | fail
deriving DecidableEq, Repr

/-- One happening; nothing arrives after the end. See src/common/net.c:65-85. -/
def apply (s : Sock) : Ev → Sock
  | .arrive bs => if s.ended ∨ s.failed then s else { s with queue := s.queue ++ bs }
  | .close => { s with ended := true }
  | .fail => { s with failed := true }

/-- The check repeated after every happening, as a handler called on readiness would, until it decides. See src/common/net.c:65-85. -/
def watch (s : Sock) : List Ev → Out × Sock
  | [] => check s
  | e :: es =>
    match check s with
    | (.again, s') => watch (apply s' e) es
    | r => r

end Verif.Peek
