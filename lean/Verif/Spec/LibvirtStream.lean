import Verif.Spec.SparseStream
import Verif.Model.LibvirtStream

/-!
The contents of a libvirt volume sent as a sparse stream.  Independent of the code that copies it.
-/
namespace Imageio.Spec.Volume
open Imageio Spec LibvirtStream

/-- The number of bytes of a part.  Specification; no code. -/
def segLength : Seg → Nat
  | .data d => d.length
  | .hole n => n

/-- The bytes of a part: holes read as zeroes.  Specification; no code. -/
def segBytes : Seg → Bytes
  | .data d => d
  | .hole n => List.replicate n 0

/-- The number of bytes of a volume.  Specification; no code. -/
def volumeLength (segs : List Seg) : Nat := (segs.map segLength).sum

/-- The bytes of a volume.  Specification; no code. -/
def volumeBytes (segs : List Seg) : Bytes := segs.flatMap segBytes

/-- Parts are not empty.  Specification; no code. -/
def Valid (segs : List Seg) : Prop := ∀ x ∈ segs, 0 < segLength x

end Imageio.Spec.Volume
