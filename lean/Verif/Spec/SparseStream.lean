import Verif.Model.Backend

/-!
The sparse stream format, as documented at `examples/sparse-stream:104-159`, and the meaning of a
stream.  Independent of the code.
-/
namespace Imageio.Spec.Sparse
open Imageio Spec

/-- A hexadecimal digit.  Specification; no code. -/
inductive Digit : Byte → Nat → Prop
  | decimal (v : Nat) (h : v < 10) : Digit (UInt8.ofNat (48 + v)) v
  | lower (v : Nat) (h : 10 ≤ v) (h' : v < 16) : Digit (UInt8.ofNat (97 + (v - 10))) v
  | upper (v : Nat) (h : 10 ≤ v) (h' : v < 16) : Digit (UInt8.ofNat (65 + (v - 10))) v

/-- A number in base 16, the most significant digit first.  Specification; no code. -/
inductive Digits : Bytes → Nat → Prop
  | nil : Digits [] 0
  | snoc {b : Bytes} {n : Nat} {c : Byte} {v : Nat} :
      Digits b n → Digit c v → Digits (b ++ [c]) (16 * n + v)

/-- The end of a line.  Specification of `examples/sparse-stream:114`; no code. -/
def crlf : Bytes := "\r\n".toUTF8.toList

/-- A header: the kind, and two numbers of 16 digits, separated by spaces.  Specification of
`examples/sparse-stream:114-159`; no code. -/
def Header (kind : String) (start length : Nat) (h : Bytes) : Prop :=
  ∃ a b : Bytes, a.length = 16 ∧ b.length = 16 ∧ Digits a start ∧ Digits b length ∧
    h = kind.toUTF8.toList ++ " ".toUTF8.toList ++ a ++ " ".toUTF8.toList ++ b ++ crlf

/-- A text of a number with a sign.  Specification; no code. -/
def Signed (b : Bytes) (x : Int) : Prop :=
  (∃ n : Nat, Digits b n ∧ x = n) ∨ (∃ (d : Bytes) (n : Nat), d ≠ [] ∧ Digits d n ∧ b = "-".toUTF8.toList ++ d ∧ x = -n)

/-- A header with signs, that is not in the format if one of the numbers is negative.  Specification of
`examples/sparse-stream:114-159`; no code. -/
def SignedHeader (kind : String) (start length : Int) (h : Bytes) : Prop :=
  ∃ a b : Bytes, a.length = 16 ∧ b.length = 16 ∧ Signed a start ∧ Signed b length ∧
    h = kind.toUTF8.toList ++ " ".toUTF8.toList ++ a ++ " ".toUTF8.toList ++ b ++ crlf

/-- The extents of a stream.  Specification of `examples/sparse-stream:122-134`; no code. -/
inductive Frame where
  | data (start : Nat) (bytes : Bytes)
  | zero (start length : Nat)
deriving DecidableEq, Repr

/-- The first byte of a frame.  Specification; no code. -/
def Frame.start : Frame → Nat
  | .data s _ => s
  | .zero s _ => s

/-- The number of bytes of a frame.  Specification; no code. -/
def Frame.length : Frame → Nat
  | .data _ d => d.length
  | .zero _ n => n

/-- The byte of the frame at offset `i` of the image.  Specification; no code. -/
def Frame.byte : Frame → Nat → Byte
  | .data s d, i => d.getD (i - s) 0
  | .zero _ _, _ => 0

/-- The frame covers offset `i`.  Specification; no code. -/
def Frame.Covers (f : Frame) (i : Nat) : Prop := f.start ≤ i ∧ i < f.start + f.length

instance (f : Frame) (i : Nat) : Decidable (f.Covers i) := by unfold Frame.Covers; infer_instance

/-- The image after a frame was written to it.  Specification; no code. -/
def Frame.apply (f : Frame) (img : Nat → Byte) : Nat → Byte :=
  fun i => if f.Covers i then f.byte i else img i

/-- The image after the frames were written to it, one after the other.  Specification; no code. -/
def applyAll (fs : List Frame) (img : Nat → Byte) : Nat → Byte :=
  fs.foldl (fun img f => f.apply img) img

/-- The frames after the metadata, up to the stop frame.  Specification of
`examples/sparse-stream:122-159`; no code. -/
inductive Frames : List Frame → Bytes → Prop
  | stop {a b : Nat} {h : Bytes} : Header "stop" a b h → Frames [] h
  | data {start : Nat} {bytes h rest : Bytes} {fs : List Frame} :
      Header "data" start bytes.length h → 0 < bytes.length → Frames fs rest →
      Frames (.data start bytes :: fs) (h ++ bytes ++ crlf ++ rest)
  | zero {start length : Nat} {h rest : Bytes} {fs : List Frame} :
      Header "zero" start length h → 0 < length → Frames fs rest →
      Frames (.zero start length :: fs) (h ++ rest)

/-- A complete stream: the metadata frame, and the frames.  Specification of
`examples/sparse-stream:104-159`; no code. -/
def Stream (payload : Bytes) (fs : List Frame) (s : Bytes) : Prop :=
  ∃ (start : Nat) (h rest : Bytes), Header "meta" start payload.length h ∧ Frames fs rest ∧
    s = h ++ payload ++ crlf ++ rest

end Imageio.Spec.Sparse
