import Verif.Model.TlsRelay
/-
What the relay of a session with TLS on one side is measured against.
-/
namespace Verif.Spec.TlsRelay
open Verif Verif.TlsRelay

/-- What the source sends: its bytes up to its end or failure. -/
def streamOf : List Rd → List UInt8
  | [] => []
  | .data b bs :: q => b :: bs ++ streamOf q
  | .wait _ :: q => streamOf q
  | .fail :: _ => []

/-- The TLS layer never has to write in order to read. -/
def ReadsOnlyRead (l : List Rd) : Prop := Rd.wait true ∉ l

/-- The TLS layer never has to read in order to write. -/
def WritesOnlyWrite (l : List Wr) : Prop := Wr.wait true ∉ l

/-- The event can be reported by `epoll` now. -/
def Reportable (r : R) : Ev → Prop
  | .tr => r.tWR = true
  | .tw => r.tWW = true
  | .pr => r.pWR = true
  | .pw => r.pWW = true
  | .timeout => True

/-- The events can be reported one after the other. -/
def Possible (r : R) : List Ev → Prop
  | [] => True
  | e :: es => Reportable r e ∧ ∀ r', step r e = some r' → Possible r' es

/-- Something is registered that moves the next bytes of direction `a` (read from the TLS connection): the TLS connection is reported when it is readable
and then read, or the plain connection is reported when it is writable and then written. -/
def MovesA (r : R) : Prop :=
  if r.a.buf = [] then r.t.rcb = some (.app 0) ∧ r.tWR = true else r.pw = true ∧ r.pWW = true

/-- The same for direction `b` (written to the TLS connection). -/
def MovesB (r : R) : Prop :=
  if r.b.buf = [] then r.pr = true ∧ r.pWR = true else r.t.wcb = some (.app 1) ∧ r.tWW = true

end Verif.Spec.TlsRelay
