/-!
Model of `ovirt_imageio/_internal/measure.py`: ranges and range lists, used for
reporting transfer progress.
-/
namespace Imageio.Measure

/-- `measure.py:7-13` class `Range`: a half open range `[start, stop)`.
The python attribute `end` is called `stop` here.  Python integers are unbounded. -/
structure Range where
  start : Int
  stop : Int
deriving DecidableEq, Repr

/-- `measure.py:15-20` `Range.__lt__`: lexicographic order on (start, end). -/
def Range.lt (a b : Range) : Bool :=
  if a.start < b.start then true
  else if a.start = b.start then decide (a.stop < b.stop)
  else false

/-- `measure.py:22-23` `Range.__len__` as seen by the builtin `len()`: a negative
length makes python raise `ValueError`.  (`OverflowError` for lengths above
`sys.maxsize` is not modelled.) -/
def Range.len? (r : Range) : Except String Int :=
  if r.stop - r.start < 0 then .error "ValueError: __len__() should return >= 0"
  else .ok (r.stop - r.start)

/-- The loop of `bisect.bisect_left` of the python standard library, called by
`bisect.insort_left` in `measure.py:46`.  The `none` branch cannot be taken when
`hi` is the length of the list. -/
def bisectLeft (a : List Range) (x : Range) (lo hi : Nat) : Nat :=
  if lo < hi then
    let mid := (lo + hi) / 2
    match a[mid]? with
    | none => lo
    | some m => if m.lt x then bisectLeft a x (mid + 1) hi else bisectLeft a x lo mid
  else lo
termination_by hi - lo
decreasing_by all_goals omega

/-- `bisect.insort_left` of the python standard library, `measure.py:46`. -/
def insortLeft (a : List Range) (x : Range) : List Range :=
  let i := bisectLeft a x 0 a.length
  a.take i ++ x :: a.drop i

/-- The loop of `measure.py:84-89`; `current` is the last merged range. -/
def mergedLoop (current : Range) : List Range → List Range
  | [] => [current]
  | r :: rs =>
    if current.stop ≥ r.start then
      mergedLoop { current with stop := max current.stop r.stop } rs
    else
      current :: mergedLoop r rs

/-- `measure.py:61-91` `_merged`.  The in-place update of `current.end` is a new
value here; the callers own the ranges, so there is no aliasing. -/
def merged : List Range → List Range
  | [] => []
  | r :: rs => mergedLoop r rs

/-- `measure.py:42-47` `RangeList.add`.  A range list is its list of ranges. -/
def add (rl : List Range) (r : Range) : List Range := merged (insortLeft rl r)

/-- `measure.py:49-55` `RangeList.update`: extend, sort, merge.  Python's sort is
stable, like `List.mergeSort`; `a ≤ b` is "not b < a". -/
def update (rl rs : List Range) : List Range :=
  merged ((rl ++ rs).mergeSort (fun a b => !(b.lt a)))

/-- The sum loop of `measure.py:57-58`, with `ValueError` of a negative range. -/
def sumLoop : List Range → Except String Int
  | [] => .ok 0
  | r :: rs => do
    let n ← r.len?
    let m ← sumLoop rs
    return n + m

/-- `measure.py:57-58` `RangeList.sum`. -/
def sum (rl : List Range) : Except String Int := sumLoop rl

end Imageio.Measure
