import Verif.Model.Stats

/-!
What happens when code is measured, as a journal without a clock.  Only the syntax `Prog` and the
exceptions of `Model/Stats` are used.
-/
namespace Imageio.Spec.Stats
open Imageio Stats Http

/-- What is written down: a measured part begins, a part that began at `start` ends at `stop` with
or without an exception, and bytes are counted.  Specification; no code. -/
inductive Entry where
  | began (name : Str)
  | ended (name : Str) (start stop : Int) (ok : Bool)
  | counted (name : Str) (n : Nat)

/-- The journal of a program that runs from time `t` to `t'` and ends with an exception or not.
Measuring changes nothing: no exceptions other than those raised by the program.
Specification; no code. -/
inductive Runs : Prog → Int → List Entry → Int → Option Exn → Prop
  | skip {t : Int} : Runs .skip t [] t none
  | tick {t : Int} {d : Nat} : Runs (.tick d) t [] (t + d) none
  | bytes {t : Int} {name : Str} {n : Nat} : Runs (.bytes name n) t [.counted name n] t none
  | raise {t : Int} {n : Nat} : Runs (.raise n) t [] t (some (.body n))
  | seq {p q : Prog} {t t1 t2 : Int} {l1 l2 : List Entry} {o : Option Exn} :
      Runs p t l1 t1 none → Runs q t1 l2 t2 o → Runs (.seq p q) t (l1 ++ l2) t2 o
  | seq_fails {p q : Prog} {t t1 : Int} {l1 : List Entry} {e : Exn} :
      Runs p t l1 t1 (some e) → Runs (.seq p q) t l1 t1 (some e)
  | handle {p q : Prog} {t t1 : Int} {l1 : List Entry} :
      Runs p t l1 t1 none → Runs (.handle p q) t l1 t1 none
  | handled {p q : Prog} {t t1 t2 : Int} {l1 l2 : List Entry} {e : Exn} {o : Option Exn} :
      Runs p t l1 t1 (some e) → Runs q t1 l2 t2 o → Runs (.handle p q) t (l1 ++ l2) t2 o
  | run {p : Prog} {name : Str} {t t1 : Int} {l : List Entry} {o : Option Exn} :
      Runs p t l t1 o →
      Runs (.run name p) t (.began name :: l ++ [.ended name t t1 o.isNone]) t1 o

/-- The time of all the parts with the name.  Specification; no code. -/
def seconds (name : Str) : List Entry → Int
  | [] => 0
  | .ended n a b _ :: l => (if n = name then b - a else 0) + seconds name l
  | _ :: l => seconds name l

/-- The number of parts with the name that ended without an exception.  Specification; no code. -/
def ops (name : Str) : List Entry → Nat
  | [] => 0
  | .ended n _ _ ok :: l => (if n = name ∧ ok = true then 1 else 0) + ops name l
  | _ :: l => ops name l

/-- The bytes counted for the name.  Specification; no code. -/
def bytes (name : Str) : List Entry → Nat
  | [] => 0
  | .counted n k :: l => (if n = name then k else 0) + bytes name l
  | _ :: l => bytes name l

/-- The names in the order in which they began first, after `names`.  Specification; no code. -/
def order (names : List Str) : List Entry → List Str
  | [] => names
  | .began n :: l => order (if n ∈ names then names else names ++ [n]) l
  | _ :: l => order names l

/-- No part is inside a part with the same name, and bytes are counted inside the part.
Specification; no code. -/
def Apart : List Str → Prog → Prop
  | path, .bytes name _ => name ∈ path
  | path, .seq p q => Apart path p ∧ Apart path q
  | path, .handle p q => Apart path p ∧ Apart path q
  | path, .run name p => name ∉ path ∧ Apart (name :: path) p
  | _, _ => True

end Imageio.Spec.Stats
