/-!
Bytes, python slices and the error values shared by the model.
-/
namespace Imageio

/-- A byte of an image, `ops.py:170-186`. -/
abbrev Byte := UInt8
/-- The content of a buffer, for example `ops.py:170`. -/
abbrev Bytes := List UInt8

/-- `b"\0" * n`, for example `backends/memory.py:140`. -/
def zeros (n : Nat) : Bytes := List.replicate n 0

/-- Normalisation of a python slice bound for a sequence of length `len`: a negative
bound counts from the end, and all bounds are clipped.  For example `nbd.py:1199`. -/
def pyBound (len : Nat) (i : Int) : Nat :=
  if i < 0 then ((len : Int) + i).toNat else min i.toNat len

/-- Python slice `b[lo:hi]`, for example `ops.py:104-113`. -/
def pySlice {α : Type} (b : List α) (lo hi : Int) : List α :=
  (b.drop (pyBound b.length lo)).take (pyBound b.length hi - pyBound b.length lo)

/-- `util.py:39-41` (`util.round_up`).  Python `%` by a positive number is `Int.emod`. -/
def roundUp (n size : Int) : Int :=
  let n := n + size - 1
  n - n % size

/-- `util.py:44-45` (`util.round_down`). -/
def roundDown (n size : Nat) : Nat := n - n % size

/-- Exceptions raised by the modelled code, `errors.py:4-80`, `ops.py:18-19`. -/
inductive Err where
  /-- `errors.PartialContent(requested, available)`, `errors.py:11` -/
  | partialContent (requested available : Int)
  /-- `ops.Canceled`, `ops.py:18-19` -/
  | canceled
  /-- `errors.AuthorizationError`, `errors.py:40` -/
  | authorization (reason : String)
  /-- `OSError` with this errno name -/
  | os (errno : String)
  /-- `_app.TerminatedBySignal`, `client/_app.py:14-20` -/
  | terminated (signo : Nat)
  /-- any other python exception -/
  | exception (name : String)
  /-- not an exception: the python loop would never end -/
  | stuck
deriving DecidableEq, Repr

/-- The result of a method call on an object with state `σ`: a value or an exception,
and the new state of the object in both cases, for example `backends/memory.py:72-81`. -/
abbrev Res (σ α : Type) := Except Err α × σ

end Imageio
