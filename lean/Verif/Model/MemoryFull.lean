import Verif.Base
/-!
All of `ovirt_imageio/_internal/backends/memory.py`: clones that share a buffer, negative positions, the dirty flag, and
`_copy`.  `Model/Memory` is the part used by the handlers of requests: one backend, and positions that are not negative.
-/
namespace Imageio.MemoryFull

/-- The index of a slice in a sequence of `n` items, of python.  Used in `memory.py:78`, `94`. -/
def index (n : Nat) (i : Int) : Nat := if i < 0 then (i + n).toNat else min i.toNat n

/-- `b[i:j]`, of python.  Used in `memory.py:78`. -/
def slice (b : Bytes) (i j : Int) : Bytes := (b.take (index b.length j)).drop (index b.length i)

/-- `b[i:j] = d` for a `bytearray`, of python: the length can change.  Used in `memory.py:94`. -/
def assign (b : Bytes) (i j : Int) (d : Bytes) : Bytes :=
  b.take (index b.length i) ++ d ++ b.drop (max (index b.length i) (index b.length j))

/-- `v[:j] = d` for a `memoryview`, of python: `none` is the `ValueError` for another length.  Used in `memory.py:78`. -/
def fill (v : Bytes) (j : Int) (d : Bytes) : Option Bytes :=
  if d.length = index v.length j then some (d ++ v.drop (index v.length j)) else none

/-- `memory.py:37` -/
inductive Mode
  | r | w | rw
deriving DecidableEq, Repr

/-- `memory.py:163-165` `readable`, without the check -/
def Mode.readable (m : Mode) : Bool := m = .r || m = .rw

/-- `memory.py:167-169` `writable`, without the check -/
def Mode.writable (m : Mode) : Bool := m = .w || m = .rw

/-- The attributes of a backend, `memory.py:36-48`; `buf` is the number of the `bytearray` object.  The extents are an
argument of `extents`, the limit of connections is not modelled. -/
structure Handle where
  mode : Mode
  buf : Nat
  pos : Int
  dirty : Bool
  closed : Bool
deriving DecidableEq, Repr

/-- The `bytearray` objects; the numbers from `next` are not used.  `memory.py:42`. -/
structure Heap where
  bufs : Nat → Bytes
  next : Nat

/-- A changed object, `memory.py:92-94`. -/
def Heap.put (h : Heap) (i : Nat) (b : Bytes) : Heap := { h with bufs := fun k => if k = i then b else h.bufs k }

/-- `memory.py:193-196` `_check_closed` -/
def closedError : Err := .exception "ValueError: Operation on closed backend"

/-- `memory.py:36-48` `Backend.__init__` with `data`: `data or bytearray()`, an empty `data` is not used. -/
def create (h : Heap) (mode : Mode) (data : Nat) : Handle × Heap :=
  if h.bufs data = [] then (⟨mode, h.next, 0, false, false⟩, { h.put h.next [] with next := h.next + 1 })
  else (⟨mode, data, 0, false, false⟩, h)

/-- `memory.py:50-58` `clone` -/
def clone (h : Heap) (b : Handle) : Handle × Heap := create h b.mode b.buf

/-- `memory.py:72-81` `readinto` with a `memoryview` that contains `view`: the result, the content of the view, and the
backend. -/
def readinto (h : Heap) (b : Handle) (view : Bytes) : Except Err Int × Bytes × Handle :=
  if b.closed then (.error closedError, view, b)
  else if !b.mode.readable then (.error (.os "Unsupproted operation: read"), view, b)
  else
    let length := min (view.length : Int) ((h.bufs b.buf).length - b.pos)
    match fill view length (slice (h.bufs b.buf) b.pos (b.pos + length)) with
    | none => (.error (.exception "ValueError"), view, b)
    | some view => (.ok length, view, { b with pos := b.pos + length })

/-- `memory.py:83-98` `write` -/
def write (h : Heap) (b : Handle) (d : Bytes) : Except Err Nat × Handle × Heap :=
  if b.closed then (.error closedError, b, h)
  else if !b.mode.writable then (.error (.os "Unsupproted operation: write"), b, h)
  else
    let f := h.bufs b.buf
    let extend : Int := b.pos + d.length - f.length
    let g := if 0 < extend then f ++ zeros extend.toNat else f
    (.ok d.length, { b with pos := b.pos + d.length, dirty := true }, h.put b.buf (assign g b.pos (b.pos + d.length) d))

/-- `memory.py:136-140` `zero` -/
def zero (h : Heap) (b : Handle) (count : Nat) : Except Err Nat × Handle × Heap :=
  if b.closed then (.error closedError, b, h)
  else if !b.mode.writable then (.error (.os "Unsupproted operation: zero"), b, h)
  else write h b (zeros count)

/-- `os.SEEK_SET`, `os.SEEK_CUR` and `os.SEEK_END`; `other` is any other number.  `memory.py:106-111` -/
inductive Whence
  | set | cur | fin | other
deriving DecidableEq, Repr

/-- `memory.py:104-112` `seek` -/
def seek (h : Heap) (b : Handle) (n : Int) (how : Whence) : Except Err Int × Handle :=
  if b.closed then (.error closedError, b)
  else
    let pos := match how with
      | .set => n
      | .cur => b.pos + n
      | .fin => (h.bufs b.buf).length + n
      | .other => b.pos
    (.ok pos, { b with pos := pos })

/-- `memory.py:114-116` `flush` -/
def flush (b : Handle) : Except Err Unit × Handle :=
  if b.closed then (.error closedError, b) else (.ok (), { b with dirty := false })

/-- `memory.py:118-120` `close` -/
def close (b : Handle) : Handle := { b with closed := true }

/-- `memory.py:211-222` `_copy`, with `view` the content of the buffer.  `fuel` bounds the rounds; `none` is a loop that does
not end, see `C99_copy_partial`. -/
def copy : Nat → Heap → Handle → Handle → Nat → Bytes → Option (Except Err Unit × Handle × Handle × Heap)
  | 0, _, _, _, _, _ => none
  | fuel + 1, h, r, w, todo, view =>
    if view.length < todo then
      match readinto h r view with
      | (.error e, _, r) => some (.error e, r, w, h)
      | (.ok _, view, r) =>
        match write h w view with
        | (.error e, w, h) => some (.error e, r, w, h)
        | (.ok _, w, h) => copy fuel h r w (todo - view.length) view
    else
      match readinto h r (view.take todo) with
      | (.error e, _, r) => some (.error e, r, w, h)
      | (.ok _, view, r) =>
        match write h w view with
        | (.error e, w, h) => some (.error e, r, w, h)
        | (.ok _, w, h) => some (.ok (), r, w, h)

end Imageio.MemoryFull
