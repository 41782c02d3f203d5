import Verif.Spec.Http
import Verif.Model.RangeErrors
/-!
What C101 says: the header of RFC 7233 section 4.2 for ranges that cannot be satisfied.
-/
namespace Imageio.RangeErrors.Spec
open Imageio.Http

/-- The answer tells the size `n`: `bytes */n`. -/
def Tells (e : Refused) (n : Nat) : Prop := ∃ ds, e.contentRange = some ("bytes */".toList ++ ds) ∧ Imageio.Spec.Number ds n

end Imageio.RangeErrors.Spec
