/-!
# Model of `Stopwatch` (src/factorama/stopwatch.hpp)

A clock reading is a natural number of ticks, a duration an integer number of ticks. Simplification: durations are added
exactly instead of as `double` seconds.
-/

namespace Factorama

/-- The data members, stopwatch.hpp:53-55. -/
structure Stopwatch where
  isRunning : Bool
  accumulated : Int
  startTime : Nat
  deriving DecidableEq, Repr

namespace Stopwatch

/-- The constructor, stopwatch.hpp:9-13; `start_time_` is value initialised (the epoch of the clock). -/
def init : Stopwatch := ⟨false, 0, 0⟩

/-- `start`, stopwatch.hpp:15-22; `now` is the reading of the clock. -/
def start (now : Nat) (w : Stopwatch) : Stopwatch :=
  if w.isRunning then w else { w with isRunning := true, startTime := now }

/-- `stop`, stopwatch.hpp:24-33. -/
def stop (now : Nat) (w : Stopwatch) : Stopwatch :=
  if !w.isRunning then w
  else { w with accumulated := w.accumulated + ((now : Int) - w.startTime), isRunning := false }

/-- `reset`, stopwatch.hpp:35-39. -/
def reset (w : Stopwatch) : Stopwatch := { w with isRunning := false, accumulated := 0 }

/-- `elapsed`, stopwatch.hpp:41-50. -/
def elapsed (now : Nat) (w : Stopwatch) : Int :=
  if w.isRunning then w.accumulated + ((now : Int) - w.startTime) else w.accumulated

/-- A call that changes the watch. -/
inductive Press where
  | start
  | stop
  | reset
  deriving DecidableEq, Repr

/-- Effect of a call at a time. -/
def press (w : Stopwatch) (e : Nat × Press) : Stopwatch :=
  match e.2 with
  | .start => w.start e.1
  | .stop => w.stop e.1
  | .reset => w.reset

/-- The watch after a sequence of calls, each with the clock reading at that time. -/
def after (evs : List (Nat × Press)) : Stopwatch := evs.foldl press init

end Stopwatch
end Factorama
