import Verif.Model.TrafficIo
import Verif.Model.TrafficFutures

/-!
# The shaped protocols with a clock

The systems of `TrafficIo` and `TrafficFutures` with a clock in milliseconds that the environment moves.  The clock
restricts when the background sender goes on: `thread::sleep` ends no earlier than asked, and the ticks of
`tokio::time::interval` have deadlines.  Nothing says that a thread runs promptly.
-/

namespace Bip324

/-- traffic/lib.rs:94 `DEFAULT_CHECK_INTERVAL_MS`. -/
abbrev DEFAULT_CHECK_INTERVAL_MS : Nat := 100

/-- What happens next: time passes, or a step of the system. traffic/io.rs:152-233, traffic/futures.rs:142-251. -/
inductive Timed (L : Type) where
  | wait (ms : Nat)
  | step (l : L)
deriving Repr, DecidableEq

/-- The blocking system with a clock: `wake` is when the sleep of traffic/io.rs:221 may end; `tries` has the times of
the `try_lock` calls of traffic/io.rs:224. -/
structure TimedSys (R : Rng) where
  sys : ShapedSys R
  now : Nat
  wake : Nat
  tries : List Nat

/-- One step with the clock.  The decoy thread decides at traffic/io.rs:220 to sleep, wakes at 221 when the time has
come and tries to lock at 224; all else is as in `ShapedSys.step`. -/
def TimedSys.step {R : Rng} (P : Prims) (prof : Profile) (t : TimedSys R) : Timed SysLabel → TimedSys R
  | .wait ms => { t with now := t.now + ms }
  | .step .bg =>
    match t.sys.bg with
    | .checking => { t with sys := t.sys.step P prof .bg, wake := t.now + DEFAULT_CHECK_INTERVAL_MS }
    | .sleeping => if t.wake ≤ t.now then { t with sys := t.sys.step P prof .bg } else t
    | .trying => { t with sys := t.sys.step P prof .bg, tries := t.tries ++ [t.now] }
    | _ => { t with sys := t.sys.step P prof .bg }
  | .step l => { t with sys := t.sys.step P prof l }

/-- A schedule with times. Any interleaving of traffic/io.rs:152-233. -/
def TimedSys.run {R : Rng} (P : Prims) (prof : Profile) (t : TimedSys R) (ls : List (Timed SysLabel)) : TimedSys R :=
  ls.foldl (TimedSys.step P prof) t

/-- The asynchronous system with a clock: `deadline` is that of the next tick of the interval of
traffic/futures.rs:212-213; `ticks` has the times of the ticks. -/
structure AsyncTimedSys (R : Rng) where
  sys : AsyncShapedSys R
  now : Nat
  deadline : Nat
  ticks : List Nat

/-- traffic/futures.rs:212-213: the first tick of an interval is due at once. -/
def AsyncTimedSys.start {R : Rng} (s : AsyncShapedSys R) (now : Nat) : AsyncTimedSys R := ⟨s, now, now, []⟩

/-- One step with the clock.  At traffic/futures.rs:240 a tick is ready once its deadline has passed; the next deadline is
one period after that deadline, not after the present (`MissedTickBehavior::Burst`, the default).  A `tick()` that is
not due changes nothing. -/
def AsyncTimedSys.step {R : Rng} (P : Prims) (prof : Profile) (t : AsyncTimedSys R) :
    Timed AsyncLabel → AsyncTimedSys R
  | .wait ms => { t with now := t.now + ms }
  | .step .tick =>
    match t.sys.task with
    | .select _ false =>
      if t.deadline ≤ t.now then
        { t with sys := t.sys.step P prof .tick, deadline := t.deadline + DEFAULT_CHECK_INTERVAL_MS,
                 ticks := t.ticks ++ [t.now] }
      else t
    | _ => t
  | .step l => { t with sys := t.sys.step P prof l }

/-- A schedule with times. Any interleaving of traffic/futures.rs:142-251. -/
def AsyncTimedSys.run {R : Rng} (P : Prims) (prof : Profile) (t : AsyncTimedSys R) (ls : List (Timed AsyncLabel)) :
    AsyncTimedSys R :=
  ls.foldl (AsyncTimedSys.step P prof) t

end Bip324
