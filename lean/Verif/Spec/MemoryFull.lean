import Verif.Model.MemoryFull
/-! Files, byte by byte. -/
namespace Imageio.MemoryFull.Spec

/-- `new` is the file `old` after writing `d` at `p`, like `pwrite(2)`: the bytes of `d`, the old bytes elsewhere, zeroes
between the old end and `p`.  Writing nothing changes nothing. -/
def Written (old : Bytes) (p : Nat) (d new : Bytes) : Prop :=
  (d = [] → new = old) ∧
  (d ≠ [] → ∀ k, new[k]? = if k < p then (if k < old.length then old[k]? else some 0)
    else if k < p + d.length then d[k - p]? else old[k]?)

/-- The bytes of a file in a range, as far as the file has them. -/
def range (f : Bytes) (p n : Nat) : Bytes := (f.drop p).take n

end Imageio.MemoryFull.Spec
