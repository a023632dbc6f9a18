import Verif.Model.Timer
/-
The worker loop in real time: src/common/process.c:49-65, src/common/event.c:57-90, 204-232. Times are milliseconds; `wall` gives what
`gettimeofday` shows at each moment of real time.
-/
namespace Verif.Timer

/-- `*wait_ms = (int)(...)` (src/common/timer.c:47): the low 32 bits, as a signed number. -/
def toInt (w : Int) : Int := (w + 2147483648) % 4294967296 - 2147483648

/-- One turn of the loop as the surroundings determine it: what the timer callbacks do, how long `epoll_wait` blocks, what the
handlers of the reported events do to timers, and how long callbacks, handlers and delays of the scheduler take together.
See src/common/process.c:56-63. -/
structure Turn where
  cbs : List (List Act)
  slept : Int
  acts : List Act
  busy : Int

/-- How long `epoll_wait` can block for a timeout (src/common/event.c:60): at most the timeout, or without limit if it is negative. -/
def sleeps (timeout slept : Int) : Bool := decide (0 ≤ slept ∧ (timeout < 0 ∨ slept ≤ timeout))

/-- One turn (src/common/process.c:61-62): an expiry pass, `epoll_wait`, `systime_update` (src/common/event.c:211), the handlers. `real` is the real
time at the beginning. The events are labelled with the real time. `none` is a crash, or a turn that cannot happen. -/
def turn (wall : Int → Int) (s : St) (real : Int) (t : Turn) : Option (List (Int × Ev) × St × Int) :=
  (expire s t.cbs).bind fun (es, w, s1) =>
    if sleeps (toInt w) t.slept then
      (acts { s1 with now := wall (real + t.slept) } t.acts).map fun (es', s2) =>
        (es.map (real, ·) ++ es'.map (real + t.slept, ·), s2, real + t.slept + t.busy)
    else none

/-- A number of turns (src/common/process.c:56-63). -/
def turns (wall : Int → Int) (s : St) (real : Int) : List Turn → Option (List (Int × Ev) × St × Int)
  | [] => some ([], s, real)
  | t :: ts => (turn wall s real t).bind fun (es, s1, r1) => (turns wall s1 r1 ts).map fun (es', s2, r2) => (es ++ es', s2, r2)

end Verif.Timer
