import Verif.Model.ConfigReads
/-! The types of values, and what the code can do with them. -/
namespace Imageio.Spec.ConfigReads
open Imageio.Config Imageio.ConfigReads

/-- The value has the type that the code needs. -/
inductive HasKind {F : Type} : Val F → Kind → Prop
  | text {s : List Char} : HasKind (.str s) .text
  | integer {i : Int} : HasKind (.int i) .integer
  | number {f : F} : HasKind (.float f) .number
  | flag {b : Bool} : HasKind (.bool b) .flag

/-- The numbers that the code can use: sizes that can be mapped, numbers of connections and ports, timeouts. -/
def Sensible (sec opt : String) (i : Int) : Prop :=
  (opt = "buffer_size" → 0 < i) ∧ (opt = "max_connections" → 0 < i) ∧
    (opt = "inactivity_timeout" → 0 < i) ∧ (sec = "remote" → opt = "port" → 0 ≤ i ∧ i < 65536)

end Imageio.Spec.ConfigReads
