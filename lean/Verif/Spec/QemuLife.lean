import Verif.Model.QemuLife
/-!
What C100 says: the processes that run, and histories in which `start` is called only when there is no process.
-/
namespace Imageio.QemuLife.Spec

/-- The process was started and did not end. -/
def Runs (h : Host) (p : Nat) : Prop := p < h.next ∧ h.code p = none

/-- The event is not the start of a server that has a process. -/
def Allowed (s : Server) : Event → Prop
  | .start _ => s.proc = none
  | _ => True

/-- All events are allowed. -/
def Polite (h : Host) (s : Server) : List Event → Prop
  | [] => True
  | e :: es => Allowed s e ∧ Polite (step h s e).2 (step h s e).1 es

end Imageio.QemuLife.Spec
