import Verif.Model.System
import Verif.Spec.Auth

/-! Specification of the whole server: when a ticket permits a request. -/
namespace Imageio.Spec

/-- The ticket object `r` permits `op` to a request with this ticket id, now: it is the ticket with this id, it was not
canceled, it has not expired, and its operations allow `op`. -/
def Permits (cfg : Auth.Config) (s : Auth.State) (id op : String) (r : Nat) : Prop :=
  s.store id = some r ∧ ∃ t, s.tickets r = some t ∧ t.canceled = false ∧
    (s.now : Int) < t.expires * cfg.ticksPerSec ∧ Allows t.attrs.ops op

/-- The request is about the ticket with this id and needs this operation: uploads and changes need a ticket for writing,
downloads a ticket for reading. -/
def Needs : System.Job → (id op : String) → Prop
  | .put q, id, op => id.toList = q.ticketId ∧ op = "write"
  | .get q, id, op => id.toList = q.ticketId ∧ op = "read"
  | .patch t, id, op => id.toList = t ∧ op = "write"

/-- In the execution `acts`, connection `c` made the request `q`, and when it did, the ticket object `r` permitted it. -/
def Presented {σ : Type} (E : System.Env σ) (s0 : System.Sys σ) (acts : List System.Act) (c : Nat) (q : System.Request)
    (r : Nat) : Prop :=
  ∃ before after s, acts = before ++ System.Act.request c q :: after ∧ System.run E s0 before = some s ∧
    ∃ id op, Needs q.job id op ∧ Permits E.cfg s.auth id op r

end Imageio.Spec
