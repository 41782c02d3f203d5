import Verif.Model.Ids
import Verif.Spec.SparseStream
/-!
Texts of UUIDs, and the hosts of an engine.
-/
namespace Imageio.Spec.Ids
open Imageio.Spec.Sparse

/-- The canonical text of the UUID with the number `n`: 32 digits in five groups, small letters.  RFC 4122; no code. -/
def Canonical (t : Bytes) (n : Nat) : Prop :=
  ∃ a b c d e : Bytes, a.length = 8 ∧ b.length = 4 ∧ c.length = 4 ∧ d.length = 4 ∧ e.length = 12 ∧ Digits (a ++ b ++ c ++ d ++ e) n ∧
    (∀ x ∈ a ++ b ++ c ++ d ++ e, ¬ (65 ≤ x ∧ x ≤ 90)) ∧ t = a ++ "-".toUTF8.toList ++ b ++ "-".toUTF8.toList ++ c ++ "-".toUTF8.toList ++ d ++ "-".toUTF8.toList ++ e

/-- 32 digits with the number `n`, small or capital letters, and dashes anywhere.  No code. -/
def Spelled (s : Bytes) (n : Nat) : Prop := (s.filter fun x => decide (x ≠ 45)).length = 32 ∧ Digits (s.filter fun x => decide (x ≠ 45)) n

/-- A host of the engine.  No code. -/
structure Host where
  id : Http.Str
  name : Http.Str
  hardware : Http.Str
  dataCenter : Http.Str
  up : Bool

/-- What is in the engine: the storage domains with the data centers (name and id) they are attached to, and the hosts.  No code. -/
structure Inventory where
  attached : Http.Str → List (Http.Str × Http.Str)
  hosts : List Host

/-- A text that a search of the engine takes as one value: not empty, no spaces or quotes.  No code. -/
def Word (s : Http.Str) : Prop := s ≠ [] ∧ ∀ c ∈ s, c ≠ ' ' ∧ c ≠ '"' ∧ c ≠ '\'' ∧ c ≠ '*' ∧ c ≠ '(' ∧ c ≠ ')'

/-- The engine answers the searches of this form with what is in it.  No code. -/
structure Honest (E : Imageio.Ids.Searches) (inv : Inventory) : Prop where
  dataCenters : ∀ sd, Word sd → E.dataCenters ("storage.name=".toList ++ sd) = some ((inv.attached sd).map fun d => ⟨d.1, d.2⟩)
  hosts : ∀ hw dc, Word hw → Word dc → E.hosts ("hw_id=".toList ++ hw ++ " and datacenter=".toList ++ dc ++ " and status=Up".toList) =
    some ((inv.hosts.filter fun h => decide (h.hardware = hw ∧ h.dataCenter = dc ∧ h.up = true)).map fun h => ⟨h.name, h.id⟩)

end Imageio.Spec.Ids
