/-!
Specification of transfer progress, independent of the model: which bytes are
covered by a list of ranges given as pairs, and how many there are.
-/
namespace Imageio.Spec

/-- Byte `x` is in one of the half open ranges `[start, stop)`. -/
def Covered (rs : List (Int × Int)) (x : Int) : Prop :=
  ∃ r ∈ rs, r.1 ≤ x ∧ x < r.2

instance (rs : List (Int × Int)) (x : Int) : Decidable (Covered rs x) :=
  inferInstanceAs (Decidable (∃ r ∈ rs, r.1 ≤ x ∧ x < r.2))

/-- The number of distinct bytes `0 ≤ x < size` which are covered. -/
def countCovered (size : Nat) (rs : List (Int × Int)) : Nat :=
  ((List.range size).filter fun (x : Nat) => decide (Covered rs (x : Int))).length

/-- All ranges lie inside `[0, size)` and are not reversed. -/
def Within (size : Nat) (rs : List (Int × Int)) : Prop :=
  ∀ r ∈ rs, 0 ≤ r.1 ∧ r.1 ≤ r.2 ∧ r.2 ≤ size

instance (size : Nat) (rs : List (Int × Int)) : Decidable (Within size rs) :=
  inferInstanceAs (Decidable (∀ r ∈ rs, 0 ≤ r.1 ∧ r.1 ≤ r.2 ∧ r.2 ≤ size))

end Imageio.Spec
