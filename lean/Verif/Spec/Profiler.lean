import Verif.Model.Profiler
/-! What a profile should contain. -/
namespace Imageio.Profiler.Spec

/-- The functions called in some events. -/
def Event.calls {α : Type} : List (Event α) → List α
  | [] => []
  | .called x :: r => x :: calls r
  | _ :: r => calls r

/-- No request to stop. -/
def NoStop {α : Type} (evs : List (Event α)) : Prop := ∀ b, Event.stop b ∉ evs

/-- Saving never failed. -/
def Saved {α : Type} (evs : List (Event α)) : Prop := Event.stop false ∉ evs

/-- What a client knows: the profiler runs if the last accepted request was a start.  Computed from the events only, for
executions where saving does not fail. -/
def Running {α : Type} : Bool → List (Event α) → Bool
  | r, [] => r
  | _, .start _ :: rest => Running true rest
  | _, .stop _ :: rest => Running false rest
  | r, .called _ :: rest => Running r rest

end Imageio.Profiler.Spec
