import Verif.Model.Progress
/-! Specification of the progress bar. -/
namespace Imageio.Spec
open Imageio.Progress

/-- The bytes reported by calls, until the first close. -/
def transferred : List Call → Nat
  | [] => 0
  | .close :: _ => 0
  | .update n :: l => n + transferred l
  | _ :: l => transferred l

/-- The whole number of percents. -/
def percentOf (done size : Nat) : Nat := done * 100 / size

/-- A number with a unit, as a text: `q` hundredths of `unit`. -/
def inUnit (q : Nat) (unit : String) : List Char :=
  (toString (q / 100)).toList ++ '.' :: ((toString (q / 10 % 10)).toList ++ ((toString (q % 10)).toList ++ ' ' :: unit.toList))

end Imageio.Spec
