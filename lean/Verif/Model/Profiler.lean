import Verif.Base
/-!
The profiler of the control service, `handlers/profile.py`, with the part of the `yappi` package that it uses.
`Model/Admin` has the same handler with the texts of the requests, but there saving the profile never fails.
-/
namespace Imageio.Profiler

/-- The types of clocks, `handlers/profile.py:37-38`. -/
inductive Clock
  | cpu | wall
deriving DecidableEq, Repr

/-- The state of the module `yappi` and the file of the profile: whether the profiler is running, the type of the clock,
whether there are statistics of a former run (`yapphavestats`), the samples collected, each with the clock it was measured
with, and the content of the file.  Used in `handlers/profile.py:52-70`. -/
structure State (α : Type) where
  running : Bool
  clock : Clock
  haveStats : Bool
  samples : List (Clock × α)
  file : Option (List (Clock × α))

/-- The state when the daemon starts; the clock of `yappi` is cpu.  `handlers/profile.py:7-10`. -/
def State.init {α : Type} : State α := ⟨false, .cpu, false, [], none⟩

/-- The result of a request: the status 200, 400, or 500 for other exceptions.  `handlers/profile.py:50-70`. -/
inductive Status
  | ok | badRequest | serverError
deriving DecidableEq, Repr

/-- `yappi.set_clock_type`: nothing changes if the type is the same; it fails if there are statistics.  Called from
`handlers/profile.py:57`. -/
def setClockType {α : Type} (clock : Clock) (s : State α) : Option (State α) :=
  if clock = s.clock then some s
  else if s.haveStats then none
  else some { s with clock := clock }

/-- `handlers/profile.py:50-58` `_start_profiling` -/
def start {α : Type} (clock : Clock) (s : State α) : Status × State α :=
  if s.running then (.badRequest, s)
  else
    match setClockType clock s with
    | none => (.serverError, s)
    | some s => (.ok, { s with running := true, haveStats := true })

/-- `handlers/profile.py:60-70` `_stop_profiling`.  `saved` is whether `stats.save` succeeds; when it fails the file keeps
its content (a simplification: it may be truncated), and the statistics are not cleared. -/
def stop {α : Type} (saved : Bool) (s : State α) : Status × State α :=
  if !s.running then (.badRequest, s)
  else
    let s := { s with running := false }
    if saved then (.ok, { s with file := some s.samples, samples := [], haveStats := false })
    else (.serverError, s)

/-- What happens: requests, one at a time because of the lock (`handlers/profile.py:16`, `51`, `61`), and functions called
in the daemon, which are sampled while the profiler runs (`handlers/profile.py:58`). -/
inductive Event (α : Type)
  | start (clock : Clock)
  | stop (saved : Bool)
  | called (x : α)

/-- One event.  `handlers/profile.py:28-41`. -/
def step {α : Type} (s : State α) : Event α → State α
  | .start c => (start c s).2
  | .stop saved => (stop saved s).2
  | .called x => if s.running then { s with samples := s.samples ++ [(s.clock, x)] } else s

/-- Any sequence of events.  `handlers/profile.py:28-70`. -/
def run {α : Type} (s : State α) (evs : List (Event α)) : State α := evs.foldl step s

end Imageio.Profiler
