import Verif.Base
/-!
Specification of a disk as a map from offsets to bytes.
-/
namespace Imageio.Spec

/-- Byte `i` of a byte list, zero after the end. -/
def byteAt (b : Bytes) (i : Nat) : Byte := b.getD i 0

/-- The disk `c` after the bytes `d` were stored at offset `off`: bytes in
`[off, off + d.length)` come from `d`, all the others are unchanged. -/
def store (c : Nat → Byte) (off : Nat) (d : Bytes) : Nat → Byte := fun i =>
  if off ≤ i ∧ i < off + d.length then byteAt d (i - off) else c i

/-- The bytes `[off, off + n)` of the disk `c`. -/
def load (c : Nat → Byte) (off n : Nat) : Bytes := (List.range n).map fun i => c (off + i)

end Imageio.Spec
