import Verif.Model.Closing
/-! What releasing contexts means. -/
namespace Imageio.Closing.Spec

/-- Nothing of the context is open. -/
def Released (x : Ctx) : Prop := x.backend = false ∧ x.buffer = false

/-- Closing this context fails. -/
def Fails (x : Ctx) : Prop := x.backend = true ∧ x.fails = true

instance (x : Ctx) : Decidable (Fails x) := by unfold Fails; infer_instance

/-- The number of connections that the ticket reports, `auth.py:255`. -/
def reported (t : Ticket) : Nat := t.connections.length

/-- The contexts that will fail to close. -/
def failing (t : Ticket) : Nat := t.connections.countP fun p => decide (Fails p.2)

end Imageio.Closing.Spec
