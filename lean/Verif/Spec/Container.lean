import Verif.Model.System
import Verif.Model.Tickets

/-! Specification of the container: the ticket it serves its image with. -/
namespace Imageio.Spec.Container
open Imageio.Images Imageio.Tickets

/-- The ticket permits reading `size` bytes of what is served at `url`, and nothing else. -/
structure Reading (t : Fields) (id : List Char) (size : Int) : Prop where
  uuid : t.uuid = id
  size : t.size = size
  ops : t.ops = [.str "read".toList]

/-- The ticket object of the authorizer that is made of the fields of a ticket. -/
def Made (t : Fields) (a : Auth.Attrs) : Prop :=
  a.uuid.toList = t.uuid ∧ (a.size : Int) = t.size ∧ t.ops = a.ops.map (fun o => Json.str o.toList) ∧ a.timeout = t.timeout

/-- All the tickets added in the execution are of this kind. -/
def OnlyTickets (P : Auth.Attrs → Prop) (acts : List System.Act) : Prop :=
  ∀ attrs url, System.Act.add attrs url ∈ acts → P attrs

/-- The last component of a path: the text after its last slash. -/
def LastComponent (path name : List Char) : Prop := '/' ∉ name ∧ (path = name ∨ ∃ dir, path = dir ++ '/' :: name)

end Imageio.Spec.Container
