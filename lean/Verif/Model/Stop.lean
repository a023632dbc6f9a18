import Verif.Model.Loop
/-
Stopping a worker: the flag the signal handler sets (src/common/process.c:192-195), where the loop looks at it (src/common/process.c:56-63), and
`epoll_wait`, which a signal ends (src/common/event.c:60-67). Times are milliseconds of real time.
-/
namespace Verif.Stop
open Verif Verif.Timer

/-- One turn of the loop as the surroundings determine it: what the timer callbacks do, how much time passes from the look at the flag until
`epoll_wait` blocks, how long that blocks unless a signal ends it, what the handlers of events do to timers, and how long they take. See
src/common/process.c:56-63. -/
structure Turn where
  cbs : List (List Act)
  pre : Int
  slept : Int
  acts : List Act
  post : Int

/-- Where the loop was when SIGINT came: not yet started or at its beginning, in the expiry pass (or anywhere between the look at the flag and
`epoll_wait`), in `epoll_wait`, in the handlers. See src/common/process.c:56-63. -/
inductive Part where
  | top
  | pass
  | wait
  | work
deriving Repr, DecidableEq

/-- The loop was left at a time, the request having come in a part; or it is still running at a time (src/common/process.c:57-60). -/
inductive Out where
  | left (at_ : Int) (part : Part)
  | running (at_ : Int)
deriving Repr, DecidableEq

/-- The worker loop (src/common/process.c:56-63) with SIGINT at real time `req`. A signal that comes while `epoll_wait` blocks ends it with `EINTR`
(src/common/event.c:65-67), no handlers run then. One that comes before does not. `part` is where the loop was when the request came. `none` is a
crash, or turns that cannot happen. -/
def loop (wall : Int → Int) (req : Int) (s : St) (real : Int) (part : Part) : List Turn → Option Out
  | [] => some (if req ≤ real then .left real part else .running real)
  | t :: ts =>
    if req ≤ real then some (.left real part)
    else match expire s t.cbs with
      | none => none
      | some (_, w, s1) =>
        let t1 := real + t.pre
        if sleeps (toInt w) t.slept then
          if t1 < req ∧ req < t1 + t.slept then
            loop wall req { s1 with now := wall req } (req + t.post) .wait ts
          else match Timer.acts { s1 with now := wall (t1 + t.slept) } t.acts with
            | none => none
            | some (_, s2) => loop wall req s2 (t1 + t.slept + t.post) (if req ≤ t1 then .pass else .work) ts
        else none

end Verif.Stop
