import Verif.Model.HttpParse
/-!
The answers to ranges that cannot be satisfied: `ovirt_imageio/_internal/validate.py` `allowed_range` and `available_range`, as
`handlers/images.py` uses them.  `Model/Images` has only the status of these answers.
-/
namespace Imageio.RangeErrors
open Imageio.Http

/-- `http.Error(REQUESTED_RANGE_NOT_SATISFIABLE, message, content_range)`, `http.py:52-57`, without the message. -/
structure Refused where
  contentRange : Option Str
deriving DecidableEq, Repr

/-- `"bytes */{}".format(size)`, `validate.py:73`, `87`. -/
def unsatisfied (size : Int) : Str := "bytes */".toList ++ fmtInt size

/-- `validate.py:65-73` `allowed_range`; `none` if it does not raise. -/
def allowedRange (offset size ticketSize : Int) : Option Refused :=
  if offset + size > ticketSize then some ⟨some (unsatisfied ticketSize)⟩ else none

/-- `validate.py:76-87` `available_range`; `none` if it does not raise. -/
def availableRange (offset size ticketSize backendSize : Int) : Option Refused :=
  if offset + size > min ticketSize backendSize then some ⟨some (unsatisfied (min ticketSize backendSize))⟩ else none

/-- `handlers/images.py:89-116` the offset and the size of a download.  The authorization between the checks is not part of it. -/
def readRange (header : Option Str) (ticketSize backendSize : Int) : Except Refused (Int × Int) :=
  match header with
  | none => .ok (0, min ticketSize backendSize)
  | some h =>
    match parseRange h with
    | none => .error ⟨none⟩
    | some r =>
      if r.first < 0 then .error ⟨none⟩
      else
        match r.last with
        | none => .ok (r.first, min ticketSize backendSize - r.first)
        | some last =>
          match allowedRange r.first (last - r.first + 1) ticketSize with
          | some e => .error e
          | none =>
            match availableRange r.first (last - r.first + 1) ticketSize backendSize with
            | some e => .error e
            | none => .ok (r.first, last - r.first + 1)

/-- `handlers/images.py:57`, `182` the check of uploads and of zeroing. -/
def writeRange (offset size : Nat) (ticketSize : Int) : Option Refused := allowedRange offset size ticketSize

end Imageio.RangeErrors
