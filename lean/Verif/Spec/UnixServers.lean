import Verif.Model.UnixServers
/-! When a server can be reached. -/
namespace Imageio.UnixServers.Spec

/-- The server `i` is running at the address `a`. -/
def RunsAt (w : World) (i : Nat) (a : List Char) : Prop := w.servers i = some ⟨a, true⟩

/-- Only the process `i` makes servers at the path `a`. -/
def OnlyAt (i : Nat) (a : List Char) (evs : List Event) : Prop :=
  ∀ j a' uuid may can, Event.start j a' uuid may can ∈ evs → (a' = a ∨ (a' = [] ∧ a = '\x00' :: uuid)) → j = i

end Imageio.UnixServers.Spec
