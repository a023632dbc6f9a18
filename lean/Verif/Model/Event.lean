/-
The event loop: src/common/event.c (Linux build: epoll).

Events are identified by the pool object they live in, so an identifier can be reused after a release. `gen` (a ghost field, not in the
code) counts the releases of an identifier; the entries of `evs` carry, also as ghosts, the count at the time they were made and the
direction they were made for.
-/
namespace Verif.Event

/-- `ev_t` (src/common/event.h:20-33), the fields used by the loop. Freshly allocated: all zero (src/common/event.c:234-240, src/common/mem.c). -/
structure Ev where
  idxr : Nat := 0
  idxw : Nat := 0
  fread : Bool := false
  fwrite : Bool := false
deriving Repr, DecidableEq

/-- Direction of an event. See src/common/event.h:26-32. -/
inductive Dir where
  | r | w
deriving Repr, DecidableEq

/-- An entry of `evs` (src/common/event.c:7): the event, and the ghosts. -/
structure Slot where
  id : Nat
  gen : Nat
  dir : Dir
deriving Repr, DecidableEq

/-- `g_event_t` (src/common/event.c:4-16) and the pool state of events. -/
structure St where
  evs : Nat → Option Slot
  evn : Nat
  ev : Nat → Ev
  alive : Nat → Bool
  gen : Nat → Nat

/-- Update of a function at one point. See src/common/event.c:57-90. -/
def upd {α : Type} (f : Nat → α) (i : Nat) (v : α) : Nat → α := fun j => if j = i then v else f j

/-- `g_event_ctx->evs[g_event_ctx->evn++] = ev` (src/common/event.c:81, 86). -/
def St.push (s : St) (x : Slot) : St := { s with evs := upd s.evs s.evn (some x), evn := s.evn + 1 }

/-- One reported event (src/common/event.c:73-88): `r`, `w` are `opt & EV_R`, `opt & EV_W`. -/
def collect1 (s : St) (e : Nat × Bool × Bool) : St :=
  let id := e.1
  let s0 := { s with ev := upd s.ev id { s.ev id with idxr := 0, idxw := 0 } }
  let s1 := if e.2.1 then
      St.push { s0 with ev := upd s0.ev id { s0.ev id with fread := true, idxr := s0.evn } } ⟨id, s.gen id, .r⟩
    else s0
  if e.2.2 then
    St.push { s1 with ev := upd s1.ev id { s1.ev id with fwrite := true, idxw := s1.evn } } ⟨id, s.gen id, .w⟩
  else s1

/-- `ev_epoll_loop` (src/common/event.c:57-90) after `ev_loop` set `evn` to 0 (209). A failing or interrupted `epoll_wait` reports nothing. -/
def collect (s : St) (reported : List (Nat × Bool × Bool)) : St := reported.foldl collect1 { s with evn := 0 }

/-- `ev_free` (src/common/event.c:242-253). -/
def free (s : St) (id : Nat) : St :=
  let e1 := if (s.ev id).idxr ≠ 0 then upd s.evs (s.ev id).idxr none else s.evs
  let e2 := if (s.ev id).idxw ≠ 0 then upd e1 (s.ev id).idxw none else e1
  { s with evs := e2, alive := upd s.alive id false, gen := upd s.gen id (s.gen id + 1) }

/-- `ev_alloc` (src/common/event.c:234-240): a zeroed object. -/
def alloc (s : St) (id : Nat) : St := { s with ev := upd s.ev id {}, alive := upd s.alive id true }

/-- What a handler does to events: release a live one, or obtain one from the pool. See src/common/event.c:234-253. -/
inductive Act where
  | free (id : Nat)
  | alloc (id : Nat)
deriving Repr, DecidableEq

/-- Effect of a handler's action. Releases of released events and allocations of live ones do not occur (properties C15, C47) and are
no-ops here. See src/common/event.c:234-253. -/
def act (s : St) : Act → St
  | .free id => if s.alive id then free s id else s
  | .alloc id => if s.alive id then s else alloc s id

/-- A handler call: the event, which callback, whether the event was live, the release counts when it was called and when it was reported.
See src/common/event.c:204-232. -/
structure Call where
  id : Nat
  dir : Dir
  alive : Bool
  gen : Nat
  slotGen : Nat
deriving Repr, DecidableEq

/-- The decision in the body of `ev_loop` (src/common/event.c:214-229) for entry `i`: the new state, the callback called (also if NULL). -/
def body (s : St) (i : Nat) : St × Option Call :=
  match s.evs i with
  | none => (s, none)
  | some x =>
    let e := s.ev x.id
    if e.fread then
      ({ s with ev := upd s.ev x.id { e with fread := false } }, some ⟨x.id, .r, s.alive x.id, s.gen x.id, x.gen⟩)
    else if e.fwrite then
      ({ s with ev := upd s.ev x.id { e with fwrite := false } }, some ⟨x.id, .w, s.alive x.id, s.gen x.id, x.gen⟩)
    else (s, none)

/-- The loop of `ev_loop` (src/common/event.c:213-230) from entry `i` on, `k` entries left. `h` gives the actions of the handler called for an
entry. Returns the state and the handler calls in order. -/
def loop (h : Nat → List Act) : Nat → Nat → St → St × List Call
  | 0, _, s => (s, [])
  | k + 1, i, s =>
    match body s i with
    | (s', none) => loop h k (i + 1) s'
    | (s', some c) =>
      let r := loop h k (i + 1) ((h i).foldl act s')
      (r.1, c :: r.2)

/-- `ev_loop` (src/common/event.c:204-232). -/
def batch (h : Nat → List Act) (s : St) (reported : List (Nat × Bool × Bool)) : St × List Call :=
  loop h (collect s reported).evn 0 (collect s reported)

/-! ### Interest -/

/-- `EV_R`, `EV_W`, `EPOLLET`: bits of an interest. See src/common/event.h:10-17. -/
structure Mask where
  r : Bool
  w : Bool
deriving Repr, DecidableEq

/-- `EV_NONE`. See src/common/event.h:10. -/
def Mask.none : Mask := ⟨false, false⟩

/-- Kernel registration of the descriptor: interest and edge-triggered flag; `none` when not registered. See src/common/event.c:40-55. -/
abbrev Kern := Option (Mask × Bool)

/-- `epoll_ctl` operations. See src/common/event.c:40-55. -/
inductive Ctl where
  | add | mod | del
deriving Repr, DecidableEq

/-- Kernel semantics of `epoll_ctl`: ADD fails if registered, MOD and DEL fail if not; `ok = false` is any other failure.
See src/common/event.c:40-55. -/
def epollCtl (k : Kern) (op : Ctl) (m : Mask) (et : Bool) (ok : Bool) : Option Kern :=
  if ok = false then none
  else match op, k with
    | .add, none => some (some (m, et))
    | .add, some _ => none
    | .mod, some _ => some (some (m, et))
    | .mod, none => none
    | .del, some _ => some none
    | .del, none => none

/-- State of one descriptor: the cached `opt` and the kernel's registration. See src/common/event.h:24. -/
structure Reg where
  opt : Mask
  kern : Kern
deriving Repr, DecidableEq

/-- `ev_epoll_opt` (src/common/event.c:40-55): new state and whether 0 was returned. -/
def epollOpt (s : Reg) (want : Mask) (ok : Bool) : Reg × Bool :=
  if s.opt ≠ want then
    if want = Mask.none then
      match epollCtl s.kern .del want false ok with
      | none => (s, false)
      | some k => (⟨want, k⟩, true)
    else
      match epollCtl s.kern (if s.opt = Mask.none then .add else .mod) want true ok with
      | none => (s, false)
      | some k => (⟨want, k⟩, true)
  else (s, true)

/-- State of one descriptor with `select`: the cached `opt` and membership in `rfds` and `wfds`. See src/common/event.c:104-130. -/
structure Sel where
  opt : Mask
  rfds : Bool
  wfds : Bool
deriving Repr, DecidableEq

/-- `ev_select_opt` (src/common/event.c:104-130). -/
def selectOpt (s : Sel) (want : Mask) : Sel :=
  if s.opt ≠ want then
    if want = ⟨true, true⟩ then
      ⟨want, if s.opt.r then s.rfds else true, if s.opt.w then s.wfds else true⟩
    else if want = ⟨true, false⟩ then
      ⟨want, if s.opt.r then s.rfds else true, if s.opt.w then false else s.wfds⟩
    else if want = ⟨false, true⟩ then
      ⟨want, if s.opt.r then false else s.rfds, if s.opt.w then s.wfds else true⟩
    else
      ⟨want, if s.opt.r then false else s.rfds, if s.opt.w then false else s.wfds⟩
  else s

end Verif.Event
