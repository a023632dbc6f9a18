import Verif.Model.Mem
import Verif.Model.Meta
import Verif.Model.Tunnel
/-
Many tunnel sessions in one worker, with their buffers in the one memory of the pool: src/app/tls_tunnel_s.c:57-229 over src/common/meta.c and
src/common/mem.c.

`Verif.Tunnel` treats one session and keeps a buffer's content as a list of its own. Here the content is in the memory shared by all sessions and by the rest
of the program: a receive stores at `meta->last`, a send reads at `meta->pos`. The cursors themselves, which the code keeps in the first 40 bytes of the block
(src/common/meta.h:10-18), are kept in records. Simplification: when a session ends, both its buffers are given back at once; with TLS this happens when the
shutdown ends (src/common/net.c:210-242), and no handler of the session uses the buffers in between.
-/
namespace Verif.Worker
open Verif Verif.Net Verif.Tunnel

/-- The memory of the process. See src/common/mem.c:113-119. -/
abbrev Memory := Nat → UInt8

/-- What `recv(fd, a, n)` or `memcpy(a, …)` stores. See src/app/tls_tunnel_s.c:66, src/common/meta.c:40. -/
def wr (mem : Memory) (a : Nat) (bs : List UInt8) : Memory :=
  fun x => if a ≤ x ∧ x < a + bs.length then bs.getD (x - a) 0 else mem x

/-- What `send(fd, a, n)` reads. See src/app/tls_tunnel_s.c:99. -/
def rd (mem : Memory) (a n : Nat) : List UInt8 := (List.range n).map fun i => mem (a + i)

/-- One direction of a session, as in `Tunnel.Dir`, with the source connection's buffer: the pool block it is in, `meta->start`, and `meta->pos` and
`meta->last` as offsets from it (src/common/meta.h:10-18). -/
structure MDir where
  src : List Rx
  dst : List Tx
  out : List UInt8
  blk : Nat × Nat
  start : Nat
  pos : Nat
  last : Nat
  eof : Bool
  readCb : Bool
  writeCb : Bool
  srcWait : Bool
  dstWait : Bool
deriving Repr, DecidableEq

/-- The receive loop (src/app/tls_tunnel_s.c:65-75 and 133-143), storing into memory. -/
def recvLoop (mem : Memory) (d : MDir) : Memory × MDir :=
  if _h : d.last < cap then
    match _hs : d.src with
    | [] => (mem, { d with srcWait := true })
    | .again :: t => (mem, { d with src := t, srcWait := true })
    | .fail :: _ => (mem, { d with eof := true })
    | .data b bs :: t =>
      let n := cap - d.last
      recvLoop (wr mem (d.start + d.last) ((b :: bs).take n))
        { d with last := d.last + min n (bs.length + 1), src := pushBack n b bs t, srcWait := false }
  else (mem, d)
termination_by cap - d.last
decreasing_by omega

/-- The send loop (src/app/tls_tunnel_s.c:98-110 and 166-178), reading from memory. The kernel never takes more than it is given. -/
def sendLoop (mem : Memory) (d : MDir) : MDir × SendRes :=
  if d.last - d.pos > 0 then
    match _h : d.dst with
    | [] => ({ d with dstWait := true }, .again)
    | .again :: t => ({ d with dst := t, dstWait := true }, .again)
    | .fail :: _ => (d, .fail)
    | .sent n :: t =>
      let k := min n (d.last - d.pos)
      sendLoop mem { d with pos := d.pos + k, out := d.out ++ rd mem (d.start + d.pos) k, dst := t, dstWait := false }
  else (d, .drained)
termination_by d.dst.length
decreasing_by simp [_h]

/-- How a handler invocation ends, as in `Tunnel.Res`. See src/app/tls_tunnel_s.c:57-191. -/
inductive MRes where
  | wait (d : MDir)
  | eofClose (d : MDir)
  | sendFail (d : MDir)
deriving Repr, DecidableEq

/-- `meta_clr(meta); dst->write_cb = NULL; src->read_cb = recv` (src/app/tls_tunnel_s.c:119-121, 187-189; src/common/meta.h:21). -/
def rearm (d : MDir) : MDir := { d with pos := 0, last := 0, writeCb := false, readCb := true }

theorem recvLoop_size (mem : Memory) (d : MDir) :
    rxSize (recvLoop mem d).2.src + (recvLoop mem d).2.last ≤ rxSize d.src + d.last := by
  fun_induction recvLoop mem d with
  | case1 mem d h hs => simp [hs]
  | case2 mem d h t hs => simp [hs, rxSize]
  | case3 mem d h t hs => simp
  | case4 mem d h b bs t hs n ih =>
    have := rxSize_pushBack n b bs t
    refine Nat.le_trans ih ?_
    simp only [hs]
    omega
  | case5 mem d h => simp

theorem sendLoop_src (mem : Memory) (d : MDir) : (sendLoop mem d).1.src = d.src := by
  fun_induction sendLoop mem d with
  | case4 d h n t hd k ih => simpa using ih
  | _ => simp

theorem recvLoop_pos (mem : Memory) (d : MDir) : (recvLoop mem d).2.pos = d.pos := by
  fun_induction recvLoop mem d with
  | case4 mem d h b bs t hs n ih => simpa using ih
  | _ => simp

/-- `tls_tunnel_traffic_send` / `tls_tunnel_traffic_reverse_send` (src/app/tls_tunnel_s.c:90-123, 158-191), including the handlers called at its end. -/
def trafficSend (mem : Memory) (d : MDir) : Memory × MRes :=
  match _h : sendLoop mem d with
  | (d1, .again) => (mem, .wait d1)
  | (d1, .fail) => (mem, .sendFail d1)
  | (d1, .drained) =>
    if d1.eof then (mem, .eofClose d1)
    else
      let r := recvLoop mem (rearm d1)
      if _hb : r.2.last - r.2.pos > 0 then trafficSend r.1 { r.2 with readCb := false, writeCb := true }
      else if r.2.eof then (r.1, .eofClose r.2) else (r.1, .wait r.2)
termination_by rxSize d.src
decreasing_by
  have h1 := recvLoop_size mem (rearm d1)
  have h2 := sendLoop_src mem d
  rw [_h] at h2
  have h3 : (rearm d1).src = d1.src := rfl
  have h4 : (rearm d1).last = 0 := rfl
  have h5 : (recvLoop mem (rearm d1)).2.last - (recvLoop mem (rearm d1)).2.pos > 0 := _hb
  show rxSize (recvLoop mem (rearm d1)).2.src < rxSize d.src
  rw [← h2]
  rw [h3, h4] at h1
  dsimp only
  omega

/-- `tls_tunnel_traffic_recv` / `tls_tunnel_traffic_reverse_recv` (src/app/tls_tunnel_s.c:57-88, 125-156). -/
def trafficRecv (mem : Memory) (d : MDir) : Memory × MRes :=
  let r := recvLoop mem d
  if r.2.last - r.2.pos > 0 then trafficSend r.1 { r.2 with readCb := false, writeCb := true }
  else if r.2.eof then (r.1, .eofClose r.2) else (r.1, .wait r.2)

/-- A session (src/app/tls_tunnel_s.h:22-33). -/
structure MSess where
  up : MDir
  down : MDir
  closed : Option Why
deriving Repr, DecidableEq

/-- Select a direction. See src/app/tls_tunnel_s.h:22-33. -/
def MSess.dir (s : MSess) : Side → MDir
  | .up => s.up
  | .down => s.down

/-- Replace a direction. See src/app/tls_tunnel_s.h:22-33. -/
def MSess.setDir (s : MSess) : Side → MDir → MSess
  | .up, d => { s with up := d }
  | .down, d => { s with down := d }

/-- Put a handler's result into the session. See src/app/tls_tunnel_s.c:82-86, 101-105, 112-117. -/
def MSess.put (s : MSess) (side : Side) : MRes → MSess
  | .wait d => s.setDir side d
  | .eofClose d => { s.setDir side d with closed := some (.eof side) }
  | .sendFail d => { s.setDir side d with closed := some (.sendFail side) }

/-- One dispatch on a session, as `Tunnel.step`. See src/common/event.c:204-232, src/app/tls_tunnel_s.c:47-54. -/
def stepSess (mem : Memory) (s : MSess) (e : Event) : Memory × MSess :=
  match s.closed with
  | some _ => (mem, s)
  | none =>
    match e with
    | .timeout => (mem, { s with closed := some .timeout })
    | .readable side =>
      if (s.dir side).readCb then
        let r := trafficRecv mem { s.dir side with srcWait := false }
        (r.1, s.put side r.2)
      else (mem, s.setDir side { s.dir side with srcWait := false })
    | .writable side =>
      if (s.dir side).writeCb then
        let r := trafficSend mem { s.dir side with dstWait := false }
        (r.1, s.put side r.2)
      else (mem, s.setDir side { s.dir side with dstWait := false })

/-- A direction whose buffer was just allocated (src/common/meta.c:3-13): `early` bytes are in it. See src/app/tls_tunnel_s.c:193-229. -/
def MDir.start' (pool : Mem.St) (blk : Nat × Nat) (early : Nat) (src : List Rx) (dst : List Tx) : MDir :=
  { src, dst, out := [], blk, start := pool.addr blk.1 blk.2 + Meta.hdr, pos := 0, last := early, eof := false, readCb := true,
    writeCb := false, srcWait := true, dstWait := true }

/-- The worker: the pool with its memory, the sessions in the order in which they started, and the blocks held by the rest of the program: connections, timers,
web requests, name lookups. See src/common/mem.c:31-46. -/
structure Wk where
  pool : Mem.St
  sess : List MSess
  held : List (Nat × Nat)

/-- What happens in the worker: a session reaches its relay with the given environment; an event of a session; the rest of the program takes a block, gives one
back, or stores a byte in one it holds. See src/app/tls_tunnel_s.c:193-229, src/common/event.c:204-232, src/common/mem.c:124-178. -/
inductive Act where
  | start (early : List UInt8) (srcUp : List Rx) (dstUp : List Tx) (srcDown : List Rx) (dstDown : List Tx)
  | event (k : Nat) (e : Event)
  | alloc (n : Int)
  | free (k : Nat)
  | write (k off : Nat) (v : UInt8)
deriving Repr, DecidableEq

/-- What is to be seen of it: whether a session was started. See src/app/tls_tunnel_s.c:198-213. -/
inductive Out where
  | started
  | refused
  | done
deriving Repr, DecidableEq

/-- `mem_pool_alloc` for `meta_alloc(…, TLS_TUNNEL_METAN)` (src/common/meta.c:6): 40 bytes for the cursors and 12288 for the data. -/
def bufAlloc (p : Mem.St) : Mem.Outcome := Mem.alloc p (Meta.hdr + cap)

/-- Both buffers of a session are given back (src/common/net.c:191-195, src/common/meta.c:15-25). `none`: the pool did not return properly. -/
def give (p : Mem.St) (s : MSess) : Option Mem.St :=
  match Mem.free p s.up.blk.1 s.up.blk.2 with
  | .next _ p1 =>
    match Mem.free p1 s.down.blk.1 s.down.blk.2 with
    | .next _ p2 => some p2
    | _ => none
  | _ => none

/-- The pool after a handler of a session: a session that has ended gives its buffers back. See src/app/tls_tunnel_s.c:82-86, 101-105, 112-117. -/
def settle (p : Mem.St) (s : MSess) : Option Mem.St := if s.closed.isSome then give p s else some p

/-- A session reaches the relay: both buffers are allocated (src/app/tls_tunnel_s.c:198-213, 275), the client side's buffer may hold bytes already
(src/app/tls_tunnel_c.c:7-36), and the recv handler is run once (src/app/tls_tunnel_s.c:228). If the second buffer cannot be had, the first is given back with its
connection. `none`: the pool did not return properly. -/
def start (w : Wk) (early : List UInt8) (srcUp : List Rx) (dstUp : List Tx) (srcDown : List Rx) (dstDown : List Tx) : Option (Out × Wk) :=
  match bufAlloc w.pool with
  | .next (.ptr i j) p1 =>
    match bufAlloc p1 with
    | .next (.ptr i' j') p2 =>
      let up := MDir.start' p2 (i, j) early.length srcUp dstUp
      let down := MDir.start' p2 (i', j') 0 srcDown dstDown
      let r := trafficRecv (wr p2.mem up.start early) up
      let s := MSess.put ⟨up, down, none⟩ .up r.2
      (settle { p2 with mem := r.1 } s).map fun p => (.started, { w with pool := p, sess := w.sess ++ [s] })
    | .next _ p2 =>
      match Mem.free p2 i j with
      | .next _ p3 => some (.refused, { w with pool := p3 })
      | _ => none
    | _ => none
  | .next _ p1 => some (.refused, { w with pool := p1 })
  | _ => none

/-- An event of a session. A session that has ended gets none (C37). See src/common/event.c:204-232. -/
def event (w : Wk) (k : Nat) (e : Event) : Option (Out × Wk) :=
  match w.sess[k]? with
  | none => some (.done, w)
  | some s =>
    if s.closed.isSome then some (.done, w)
    else
      let r := stepSess w.pool.mem s e
      (settle { w.pool with mem := r.1 } r.2).map fun p => (.done, { w with pool := p, sess := w.sess.set k r.2 })

/-- One action. The rest of the program stores only inside blocks it holds, and gives back only those. See src/common/mem.c:124-178. -/
def step (w : Wk) : Act → Option (Out × Wk)
  | .start early srcUp dstUp srcDown dstDown => start w early srcUp dstUp srcDown dstDown
  | .event k e => event w k e
  | .alloc n =>
    match Mem.alloc w.pool n with
    | .next (.ptr i j) p => some (.done, { w with pool := p, held := w.held ++ [(i, j)] })
    | .next _ p => some (.done, { w with pool := p })
    | _ => none
  | .free k =>
    match w.held[k]? with
    | none => some (.done, w)
    | some b =>
      match Mem.free w.pool b.1 b.2 with
      | .next _ p => some (.done, { w with pool := p, held := w.held.eraseIdx k })
      | _ => none
  | .write k off v =>
    match w.held[k]? with
    | none => some (.done, w)
    | some b =>
      if off < Mem.space b.1 then
        some (.done, { w with pool := { w.pool with mem := wr w.pool.mem (w.pool.addr b.1 b.2 + off) [v] } })
      else some (.done, w)

/-- A run, with what was to be seen. `none`: a call of the pool did not return properly. See src/common/process.c:151-170. -/
def run (w : Wk) : List Act → Option (List Out × Wk)
  | [] => some ([], w)
  | a :: as =>
    match step w a with
    | none => none
    | some (o, w') => (run w' as).map fun r => (o :: r.1, r.2)

/-- A worker that has just started. See src/common/mem.c:82-122. -/
def init (base : Nat → Nat) : Wk := ⟨Mem.init base, [], []⟩

end Verif.Worker
