import Verif.Model.Memory
/-!
Model of `ovirt_imageio/_internal/backends/nbd.py` over an NBD server that keeps the bytes
of one export.  The wire protocol between the two is modelled in `Model/Nbd.lean`.
-/
namespace Imageio.NbdBackend
open Imageio.Memory (Mode)

/-- A failing request: the error the client raises (`nbd.ReplyError`, or a socket error), and
how many bytes of the request took effect before the failure.  `_internal/nbd.py:950-989`. -/
structure Fault where
  msg : String
  after : Nat
deriving DecidableEq, Repr

/-- The state of a backend (`backends/nbd.py:55-66`) and of the server behind it: the export, the part
of it that would survive a crash of the server, the transmission flags the server sent in the
handshake (`_internal/nbd.py:444,454`), and the faults of the coming requests (`none` for a
request that works). -/
structure State where
  mode : Mode
  bs : Nat
  export_ : Bytes
  disk : Bytes
  pos : Nat
  canZero : Bool
  canFlush : Bool
  faults : List (Option Fault)
deriving DecidableEq, Repr

/-- One request that uses bytes `[off, off + n)`: what the server does with it.  A server
refuses a request after the end of the export, and a request that is not aligned to the
minimum block size it advertised (NBD protocol, "Block sizes").  `f k` is the effect of the
first `k` bytes of the request.  `_internal/nbd.py:427-458`. -/
def request (s : State) (off n : Nat) (f : Nat → State → State) : Res State Unit :=
  match s.faults with
  | some e :: fs => (.error (.exception e.msg), f (min e.after n) { s with faults := fs })
  | fs =>
    let s := { s with faults := fs.tail }
    if s.export_.length < off + n ∨ off % s.bs ≠ 0 ∨ n % s.bs ≠ 0 then
      (.error (.exception "ReplyError: EINVAL"), s)
    else (.ok (), f n s)

/-- The error of a method that the mode does not allow, `backends/nbd.py:96-97,112-113,121-122`. -/
def unsupported : Err := .os "Unsupported operation"

/-- `readinto`, `backends/nbd.py:95-109`. -/
def readinto (s : State) (len : Nat) : Res State Bytes :=
  if !s.mode.readable then (.error unsupported, s)
  else
    let length := min len (s.export_.length - s.pos)
    if length = 0 then (.ok [], s)
    else
      match request s s.pos length (fun _ s => s) with
      | (.error e, s') => (.error e, s')
      | (.ok (), s') => (.ok ((s'.export_.drop s.pos).take length), { s' with pos := s.pos + length })

/-- The server stores `d` at `off`; a request after the end never gets here.
The server, after `_internal/nbd.py:437-441`. -/
def serverStore (off : Nat) (d : Bytes) (s : State) : State :=
  { s with export_ := (s.export_.take off ++ d ++ s.export_.drop (off + d.length)).take s.export_.length }

/-- `write`, `backends/nbd.py:111-118`. -/
def write (s : State) (_addr : Nat) (d : Bytes) : Res State Nat :=
  if !s.mode.writable then (.error unsupported, s)
  else
    match request s s.pos d.length (fun k => serverStore s.pos (d.take k)) with
    | (.error e, s') => (.error e, s')
    | (.ok (), s') => (.ok d.length, { s' with pos := s.pos + d.length })

/-- `zero`, `backends/nbd.py:120-126`, `_internal/nbd.py:443-450`.  The "no hole" flag changes
only the allocation, that is not modelled. -/
def zero (s : State) (count : Nat) : Res State Nat :=
  if !s.mode.writable then (.error unsupported, s)
  else if !s.canZero then (.error (.exception "UnsupportedRequest"), s)
  else
    match request s s.pos count (fun k => serverStore s.pos (zeros k)) with
    | (.error e, s') => (.error e, s')
    | (.ok (), s') => (.ok count, { s' with pos := s.pos + count })

/-- `flush`, `backends/nbd.py:128-130`, `_internal/nbd.py:452-458`. -/
def flush (s : State) : Res State Unit :=
  if !s.canFlush then (.ok (), s)
  else
    match s.faults with
    | some e :: fs => (.error (.exception e.msg), { s with faults := fs })
    | fs => (.ok (), { s with disk := s.export_, faults := fs.tail })

/-- `seek`, `backends/nbd.py:135-142`, with `os.SEEK_SET`. -/
def seek (s : State) (n : Nat) : Res State Unit := (.ok (), { s with pos := n })

/-- The NBD backend, `backends/nbd.py:50-221`, for an export with minimum block size `bs`. -/
def backend (bs : Nat) : Backend State where
  blockSize := bs
  tell s := s.pos
  seek := seek
  readinto := readinto
  write := write
  zero := zero
  flush := flush
  size s := s.export_.length

end Imageio.NbdBackend
