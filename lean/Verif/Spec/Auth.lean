import Verif.Model.Auth
/-!
Specification of what can be observed in the log of the server: which events are I/O done
with a ticket, which bytes were transferred, how often a backend was opened.
-/
namespace Imageio.Auth

/-- The event shows that an operation is using this ticket object. -/
def Event.uses (r : Nat) : Event → Prop
  | .io r' _ _ => r' = r
  | .opStart r' => r' = r
  | .opEnd r' _ => r' = r
  | _ => False

/-- The range of bytes transferred by an event, if it is I/O of ticket object `r`. -/
def Event.range (r : Nat) : Event → Option (Int × Int)
  | .io r' start length => if r' = r then some (start, start + length) else none
  | _ => none

/-- The ranges of all the I/O of ticket object `r`. -/
def ioRanges (r : Nat) (log : List Event) : List (Int × Int) := log.filterMap (Event.range r)

/-- The event is opening a backend for this connection and ticket object. -/
def Event.opens (c r : Nat) : Event → Bool
  | .ctxOpened c' r' _ => c' = c && r' = r
  | _ => false

/-- How many times a backend was opened for this connection and ticket object. -/
def openCount (c r : Nat) (log : List Event) : Nat := log.countP (Event.opens c r)

/-- No ticket was added again with the id of a previous ticket. -/
def UniqueIds (s : State) : Prop :=
  ∀ r r' t t', s.tickets r = some t → s.tickets r' = some t' → t.attrs.uuid = t'.attrs.uuid → r = r'

/-- In the execution `as`, a request of connection `c` was authorized with ticket object `r`. -/
def AuthorizedBy (cfg : Config) (as : List Act) (c r : Nat) : Prop :=
  ∃ before id op after s, as = before ++ Act.request c id op :: after ∧ run cfg init before = some s ∧
    authorize cfg s id op = .ok r

end Imageio.Auth

namespace Imageio.Spec

/-- The permissions listed in a ticket allow a request: "write" also allows "read", and
nothing else implies anything. -/
def Allows (perms : List String) (request : String) : Prop :=
  request ∈ perms ∨ (request = "read" ∧ "write" ∈ perms)

instance (p : List String) (r : String) : Decidable (Allows p r) :=
  inferInstanceAs (Decidable (r ∈ p ∨ (r = "read" ∧ "write" ∈ p)))

end Imageio.Spec
