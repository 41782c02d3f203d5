import Verif.Model.Backend
/-!
Model of `ovirt_imageio/_internal/backends/memory.py`.
-/
namespace Imageio.Memory

/-- The mode of a backend, `memory.py:37`, `backends/nbd.py:62`: "r", "w" or "r+". -/
inductive Mode where
  | r | w | rw
deriving DecidableEq, Repr

/-- `readable`, `memory.py:163-165`. -/
def Mode.readable : Mode → Bool
  | .r => true | .w => false | .rw => true

/-- `writable`, `memory.py:167-169`. -/
def Mode.writable : Mode → Bool
  | .r => false | .w => true | .rw => true

/-- `Backend.__init__`, `memory.py:36-48` (without the dirty flag, the extents and the
connection limit). -/
structure State where
  mode : Mode
  buf : Bytes
  pos : Nat
  closed : Bool
deriving DecidableEq, Repr

/-- Store `d` at `p` in a growing byte array, `memory.py:88-94`. -/
def writeAt (f : Bytes) (p : Nat) (d : Bytes) : Bytes :=
  let g := f ++ zeros (p + d.length - f.length)
  g.take p ++ d ++ g.drop (p + d.length)

/-- `memory.py:194-196` `_check_closed`; the error of the operations that the mode refuses is another one, see `readinto`. -/
def closedError : Err := .exception "ValueError: Operation on closed backend"

/-- `readinto`, `memory.py:72-81`.  Simplified: when the position is after the end of the
buffer the python length is negative; assigning an empty slice to a non empty view raises
`ValueError`.  The model raises also for a view that is not longer than the distance from
the end, where the code returns a negative count. -/
def readinto (s : State) (len : Nat) : Res State Bytes :=
  if s.closed then (.error closedError, s)
  else if !s.mode.readable then (.error (.os "Unsupproted operation: read"), s)
  else if s.buf.length < s.pos then (.error (.exception "ValueError"), s)
  else
    let length := min len (s.buf.length - s.pos)
    (.ok ((s.buf.drop s.pos).take length), { s with pos := s.pos + length })

/-- `write`, `memory.py:83-98`. -/
def write (s : State) (_addr : Nat) (d : Bytes) : Res State Nat :=
  if s.closed then (.error closedError, s)
  else if !s.mode.writable then (.error (.os "Unsupproted operation: write"), s)
  else (.ok d.length, { s with buf := writeAt s.buf s.pos d, pos := s.pos + d.length })

/-- `zero`, `memory.py:136-140`. -/
def zero (s : State) (count : Nat) : Res State Nat :=
  if s.closed then (.error closedError, s)
  else if !s.mode.writable then (.error (.os "Unsupproted operation: zero"), s)
  else write s 0 (zeros count)

/-- `seek`, `memory.py:104-112`, with `os.SEEK_SET`. -/
def seek (s : State) (n : Nat) : Res State Unit :=
  if s.closed then (.error closedError, s) else (.ok (), { s with pos := n })

/-- `flush`, `memory.py:114-116`. -/
def flush (s : State) : Res State Unit :=
  if s.closed then (.error closedError, s) else (.ok (), s)

/-- The memory backend, `memory.py:31-196`.  `block_size` is 1, `memory.py:142-144`. -/
def backend : Backend State where
  blockSize := 1
  tell s := s.pos
  seek := seek
  readinto := readinto
  write := write
  zero := zero
  flush := flush
  size s := s.buf.length

end Imageio.Memory
