import Verif.Model.ImageioClient

/-!
What the calls of an `ImageioClient` may do to an image of `size` bytes.  The image is a function from offsets to bytes.
-/
namespace Imageio.Spec
open ImageioClient

/-- The call may change the byte `i`: calls that modify the image, if their range is inside the image. -/
def Touches (size : Nat) : Call → Nat → Prop
  | .write offset d, i => offset + d.length ≤ size ∧ offset ≤ i ∧ i < offset + d.length
  | .zero offset n, i => offset + n ≤ size ∧ offset ≤ i ∧ i < offset + n
  | .readFrom offset n _, i => offset + n ≤ size ∧ offset ≤ i ∧ i < offset + n
  | _, _ => False

/-- The range of the call is inside the image. -/
def InBounds (size : Nat) : Call → Prop
  | .read offset n => offset + n ≤ size
  | .write offset d => offset + d.length ≤ size
  | .zero offset n => offset + n ≤ size
  | .readFrom offset n _ => offset + n ≤ size
  | .writeTo offset n _ => offset + n ≤ size
  | .size => True
  | .flush => True

/-- A successful call: what the application gets, and the image after it. -/
def Does (size : Nat) (img : Nat → Byte) : Call → Reply → (Nat → Byte) → Prop
  | .size, r, img' => r = .size size ∧ img' = img
  | .read offset n, r, img' => img' = img ∧ ∃ d, r = .data d ∧ d.length = n ∧ ∀ i < n, byteAt d i = img (offset + i)
  | .write offset d, r, img' => r = .done ∧
      ∀ i, img' i = if offset ≤ i ∧ i < offset + d.length then byteAt d (i - offset) else img i
  | .zero offset n, r, img' => r = .done ∧ ∀ i, img' i = if offset ≤ i ∧ i < offset + n then 0 else img i
  | .readFrom offset n rd, r, img' => n ≤ rd.rest.length ∧
      (∃ rd', r = .reader rd' ∧ rd'.rest = rd.rest.drop n) ∧
      ∀ i, img' i = if offset ≤ i ∧ i < offset + n then byteAt rd.rest (i - offset) else img i
  | .writeTo offset n wr, r, img' => img' = img ∧
      ∃ wr' d, r = .writer wr' ∧ wr'.got = wr.got ++ d ∧ d.length = n ∧ ∀ i < n, byteAt d i = img (offset + i)
  | .flush, r, img' => r = .done ∧ img' = img

/-- A call and its result: a successful call is inside the image and does what it says, a call that raises changes at most
its own range. -/
def Meets (size : Nat) (img : Nat → Byte) (c : Call) (r : Except Err Reply) (img' : Nat → Byte) : Prop :=
  match r with
  | .ok r => InBounds size c ∧ Does size img c r img'
  | .error _ => ∀ i, ¬ Touches size c i → img' i = img i

/-- Calls one after the other. -/
inductive History (size : Nat) : (Nat → Byte) → List (Call × Except Err Reply) → (Nat → Byte) → Prop
  | nil (img : Nat → Byte) : History size img [] img
  | cons {img img1 img2 : Nat → Byte} {c : Call} {r : Except Err Reply} {rest : List (Call × Except Err Reply)}
      (h : Meets size img c r img1) (t : History size img1 rest img2) : History size img ((c, r) :: rest) img2

end Imageio.Spec
