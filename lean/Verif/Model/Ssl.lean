import Verif.Model.Event
/-
TLS connections: src/common/ssl.c. OpenSSL is represented by the results of its calls, chosen by the environment. `ev_opt` is represented by
the new interest (its own correctness is property C39).
-/
namespace Verif.Ssl
open Verif.Event (Mask Mask.none)

/-- Callback values that `read_cb`/`write_cb` take: those of the application, and `ssl_handshake_cb`, `ssl_read_cb`, `ssl_write_cb`
(src/common/ssl.c:101, 182, 228). -/
inductive Cb where
  | app (n : Nat)
  | hs
  | rd
  | wr
deriving Repr, DecidableEq

/-- The fields of `ev_t` and `ssl_con_t` involved (src/common/event.h:20-33, src/common/ssl.h:15-29); `none` is NULL, `Mask.none` is 0. -/
structure S where
  opt : Mask
  rcb : Option Cb
  wcb : Option Cb
  typ : Mask := Mask.none
  ccr : Option Cb := none
  ccw : Option Cb := none
deriving Repr, DecidableEq

/-- Result of an OpenSSL call: success, `SSL_ERROR_WANT_READ`, `SSL_ERROR_WANT_WRITE`, any other error. See src/common/ssl.c:144-293. -/
inductive Res where
  | ok | wantR | wantW | err
deriving Repr, DecidableEq

/-- Reading interest, writing interest. See src/common/event.h:12. -/
def maskR : Mask := ⟨true, false⟩
/-- See `maskR`. See src/common/event.h:13. -/
def maskW : Mask := ⟨false, true⟩

/-- Caching of interest and callbacks (src/common/ssl.c:157-166, 204-211, 249-256; the same code three times). -/
def cache (s : S) : S :=
  { s with
    typ := if s.typ = Mask.none then s.opt else s.typ
    ccr := if s.ccr = none then s.rcb else s.ccr
    ccw := if s.ccw = none then s.wcb else s.ccw }

/-- Restoring the interest (src/common/ssl.c:191-194, 236-239). -/
def restoreTyp (s : S) : S := if s.typ ≠ Mask.none then { s with opt := s.typ, typ := Mask.none } else s

/-- Restoring the write callback (src/common/ssl.c:114-117, 195-198). -/
def restoreW (s : S) : S := if s.ccw ≠ none then { s with wcb := s.ccw, ccw := none } else s

/-- Restoring the read callback (src/common/ssl.c:119-122, 240-243). -/
def restoreR (s : S) : S := if s.ccr ≠ none then { s with rcb := s.ccr, ccr := none } else s

/-- `ssl_read` (src/common/ssl.c:184-226). -/
def read (s : S) : Res → S
  | .ok => restoreW (restoreTyp s)
  | .wantR => { cache s with opt := maskR }
  | .wantW => { cache s with wcb := some .rd, opt := maskW }
  | .err => s

/-- `ssl_write` (src/common/ssl.c:230-268). -/
def write (s : S) : Res → S
  | .ok => restoreR (restoreTyp s)
  | .wantR => { cache s with rcb := some .wr, opt := maskR }
  | .wantW => { cache s with opt := maskW }
  | .err => s

/-- `ssl_handshake` (src/common/ssl.c:144-180). -/
def handshake (s : S) : Res → S
  | .ok => s
  | .wantR => { cache s with rcb := some .hs, opt := maskR }
  | .wantW => { cache s with wcb := some .hs, opt := maskW }
  | .err => s

/-- `ssl_handshake_cb` after a successful `ssl_handshake` (src/common/ssl.c:109-122): interest and callbacks before one of them is called.
`cc_ev_typ` is not reset. -/
def handshakeDone (s : S) : S :=
  restoreR (restoreW (if s.typ ≠ Mask.none then { s with opt := s.typ } else s))

/-- The callback called at the end of `ssl_handshake_cb` after success (src/common/ssl.c:124-126). -/
def handshakeNext (s : S) : Option Cb := if s.wcb ≠ none then s.wcb else s.rcb

/-- Which application callback a call of a callback leads to: `ssl_read_cb` calls the read callback, `ssl_write_cb` calls the write callback
(src/common/ssl.c:182, 228). The relation is empty when NULL is called and when the calls never end. -/
inductive Reaches (s : S) : Option Cb → Nat → Prop
  | app (n : Nat) : Reaches s (some (.app n)) n
  | rd {n : Nat} : Reaches s s.rcb n → Reaches s (some .rd) n
  | wr {n : Nat} : Reaches s s.wcb n → Reaches s (some .wr) n

/-- A call of NULL, directly or through `ssl_read_cb`, `ssl_write_cb`. See src/common/ssl.c:124-126, 182, 228. -/
inductive CallsNull (s : S) : Option Cb → Prop
  | null : CallsNull s none
  | rd : CallsNull s s.rcb → CallsNull s (some .rd)
  | wr : CallsNull s s.wcb → CallsNull s (some .wr)

/-- What happens to a connection: a read or write with its result, or the application setting a callback or the interest.
See src/common/ssl.c:144-293. -/
inductive Op where
  | read (r : Res)
  | write (r : Res)
  | setR (cb : Option Nat)
  | setW (cb : Option Nat)
  | opt (m : Mask)
deriving Repr, DecidableEq

/-- Effect of an operation; the application's assignments are those of the callers in src/app. See src/common/ssl.c:144-293. -/
def step (s : S) : Op → S
  | .read r => read s r
  | .write r => write s r
  | .setR cb => { s with rcb := cb.map .app }
  | .setW cb => { s with wcb := cb.map .app }
  | .opt m => { s with opt := m }

/-- A sequence of operations. See src/common/ssl.c:144-293. -/
def run (s : S) (ops : List Op) : S := ops.foldl step s

/-! ### The error queue -/

/-- What is done with OpenSSL in a worker. `io k`: a handshake, read, write or shutdown that leaves `k` errors behind and succeeds or has to wait;
`ioErr k`: one that fails with `k` errors (src/common/ssl.c:97, 178, 224, 266: `ssl_dump_error` removes all); `setup k`: creating a
connection (src/common/ssl.c:372-397), `k` errors left in the queue by failing certificate calls (302-304, 355-357). -/
inductive Tls where
  | io (k : Nat)
  | ioErr (k : Nat)
  | setup (k : Nat)
deriving Repr, DecidableEq

/-- The number of queued errors after an operation; `none`: `ssl_clear_error` (src/common/ssl.c:11-18) does not end, since `ERR_peek_error`
does not remove what it returns. -/
def tls (q : Nat) : Tls → Option Nat
  | .io k => if q ≠ 0 then none else some k
  | .ioErr _ => if q ≠ 0 then none else some 0
  | .setup k => some (q + k)

/-- A sequence of operations. See src/common/ssl.c:58-293. -/
def tlsRun (q : Nat) : List Tls → Option Nat
  | [] => some q
  | a :: l => match tls q a with
    | none => none
    | some q' => tlsRun q' l

end Verif.Ssl
