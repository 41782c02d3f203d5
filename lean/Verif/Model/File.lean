import Verif.Model.Memory
/-!
Model of `ovirt_imageio/_internal/backends/file.py`: regular files and block devices
opened with direct I/O.

The kernel is modelled by the functions `fio*`, `fallocate*`, `truncate` and `fsync`:

* direct I/O fails with EINVAL unless the offset, the length and the memory address are
  multiples of the block size;
* a read returns what is available, stopping at the end of the file, and may be short at any
  block boundary (`shortR`);
* a write of more than one block may be short at any byte (`shortW`); a write of one block
  is complete (the assumption of the TODO in `file.py:226`);
* a block device never grows: writes are cut at the end and fail with ENOSPC at the end;
* every system call may fail with any errno (`faults`), without changing the storage.
-/
namespace Imageio.File

open Imageio.Memory (writeAt)

/-- Constants of an open backend: regular file or block device (`file.py:40-42`), the block
size (`file.py:273`, `file.py:348`) and the sparse flag (`file.py:64`). -/
structure Env where
  isBlock : Bool
  bs : Nat
  sparse : Bool
deriving DecidableEq, Repr

/-- State of the backend and of the file it uses.  `backends/file.py:53-69`, `271-273`, `343-348`. -/
structure State where
  /-- Content of the file. -/
  data : Bytes
  /-- Content that survives a crash of the host: the content at the last fsync. -/
  disk : Bytes
  pos : Nat
  /-- `_can_zero_range`, `_can_punch_hole`, `_can_fallocate`, `file.py:271`, `file.py:345-347`. -/
  canZeroRange : Bool
  canPunchHole : Bool
  canFallocate : Bool
  shortR : List Nat
  shortW : List Nat
  faults : List (Option String)
deriving DecidableEq, Repr

/-- Sequencing of calls: an exception stops.  Consecutive statements of `backends/file.py`, for example `backends/file.py:408-419`. -/
def andThen {α β : Type} (r : Res State α) (f : α → State → Res State β) : Res State β :=
  match r with
  | (.error e, s) => (.error e, s)
  | (.ok a, s) => f a s

/-- A system call: fails if a fault is due, otherwise runs `f`.
Any call of `self._fio`, `os` or `ioutil` in `backends/file.py:74-506`. -/
def sys {α : Type} (s : State) (f : State → Res State α) : Res State α :=
  match s.faults with
  | [] => f s
  | none :: fs => f { s with faults := fs }
  | some e :: fs => (.error (.os e), { s with faults := fs })

/-- How many of `avail` bytes the kernel reads: everything, or some number of blocks.
The kernel, at `backends/file.py:75`. -/
def shortRead (env : Env) (s : State) (avail : Nat) : Nat :=
  match s.shortR with
  | [] => avail
  | r :: _ => min avail ((r + 1) * env.bs)

/-- How many of `avail` bytes the kernel writes for a request of `len` bytes: everything, or,
for more than one block, some number of bytes.  The kernel, at `backends/file.py:85-89`. -/
def shortWrite (env : Env) (s : State) (len avail : Nat) : Nat :=
  match s.shortW with
  | [] => avail
  | w :: _ => if len ≤ env.bs then avail else min avail (w + 1)

/-- `io.FileIO.readinto` on a file opened with O_DIRECT, `file.py:74-75`. -/
def fioReadinto (env : Env) (s : State) (len : Nat) : Res State Bytes :=
  sys s fun s =>
    if s.pos % env.bs ≠ 0 ∨ len % env.bs ≠ 0 then (.error (.os "EINVAL"), s)
    else
      let avail := min len (s.data.length - s.pos)
      let n := shortRead env s avail
      (.ok ((s.data.drop s.pos).take n), { s with pos := s.pos + n, shortR := s.shortR.tail })

/-- `io.FileIO.write` on a file opened with O_DIRECT, used in `file.py:85`, `file.py:89`,
`file.py:229`. -/
def fioWrite (env : Env) (s : State) (addr : Nat) (d : Bytes) : Res State Nat :=
  sys s fun s =>
    if s.pos % env.bs ≠ 0 ∨ d.length % env.bs ≠ 0 ∨ addr % env.bs ≠ 0 then (.error (.os "EINVAL"), s)
    else if env.isBlock ∧ s.data.length ≤ s.pos then (.error (.os "ENOSPC"), s)
    else
      let avail := if env.isBlock then min d.length (s.data.length - s.pos) else d.length
      let n := shortWrite env s d.length avail
      (.ok n, { s with data := if n = 0 then s.data else writeAt s.data s.pos (d.take n),
                       pos := s.pos + n, shortW := s.shortW.tail })

/-- `seek`, `file.py:94-95`. -/
def seek (s : State) (n : Nat) : Res State Unit := (.ok (), { s with pos := n })

/-- `readinto`, `file.py:74-75`. -/
def readinto (env : Env) (s : State) (len : Nat) : Res State Bytes := fioReadinto env s len

/-- `_aligned`, `file.py:187-191`: `not (n & (block_size - 1))`, for a power of two. -/
def aligned (env : Env) (n : Nat) : Bool := n % env.bs = 0

/-- `_write_unaligned`, `file.py:193-234`: read, modify, write of one block.  The new
anonymous mmap (`util.py:48-57`) holds zeros. -/
def writeUnaligned (env : Env) (s : State) (buf : Bytes) : Res State Nat :=
  let start := s.pos
  let offset := start % env.bs
  let count := min buf.length (env.bs - offset)
  andThen (seek s (start - offset)) fun _ s =>
  andThen (readinto env s env.bs) fun got s =>
  let block := got ++ zeros (env.bs - got.length)
  let block := block.take offset ++ buf.take count ++ block.drop (offset + count)
  andThen (seek s (start - offset)) fun _ s =>
  andThen (fioWrite env s 0 block) fun _ s =>
  andThen (seek s (start + count)) fun _ s => (.ok count, s)

/-- `write`, `file.py:77-89`. -/
def write (env : Env) (s : State) (addr : Nat) (buf : Bytes) : Res State Nat :=
  if !aligned env s.pos || buf.length < env.bs then writeUnaligned env s buf
  else if aligned env buf.length then fioWrite env s addr buf
  else fioWrite env s addr (buf.take (roundDown buf.length env.bs))

/-- `_write_zeros`, `file.py:499-506`, with the buffer size computed by the caller.  The fuel
is the count. -/
def writeZerosLoop (env : Env) (bufSize : Nat) : (fuel : Nat) → State → (count : Nat) → Res State Unit
  | fuel, s, count =>
    if count = 0 then (.ok (), s)
    else
      match fuel with
      | 0 => (.error .stuck, s)
      | fuel + 1 =>
        andThen (write env s 0 (zeros (min count bufSize))) fun n s =>
          writeZerosLoop env bufSize fuel s (count - n)

/-- `MiB`, `units.py:9`. -/
def mib : Nat := 1024 * 1024

/-- `_write_zeros`, `file.py:499-506`. -/
def writeZeros (env : Env) (s : State) (count : Nat) : Res State Unit :=
  writeZerosLoop env (min count mib) count s count

/-- Effect of `fallocate` with `FALLOC_FL_PUNCH_HOLE | FALLOC_FL_KEEP_SIZE`.
`backends/file.py:425-426`, `471-472`. -/
def punched (f : Bytes) (off n : Nat) : Bytes :=
  f.take off ++ zeros (min n (f.length - off)) ++ f.drop (off + n)

/-- The modes of `fallocate` used by the code.  `backends/file.py:297`, `413`, `425-427`, `441`, `471`. -/
inductive FallocMode where
  | zeroRange | punchHole | allocate
deriving DecidableEq, Repr

/-- The `fallocate` system call on a regular file, `ioutil.c` `fallocate`.  `ioutil.c:166-187`. -/
def fallocateSys (mode : FallocMode) (off n : Nat) (s : State) : Res State Unit :=
  sys s fun s =>
    match mode with
    | .zeroRange => (.ok (), { s with data := writeAt s.data off (zeros n) })
    | .punchHole => (.ok (), { s with data := punched s.data off n })
    | .allocate => (.ok (), { s with data := s.data ++ zeros (off + n - s.data.length) })

/-- `_fallocate`, `file.py:483-494`: False when not supported. -/
def fallocate (mode : FallocMode) (off n : Nat) (s : State) : Res State Bool :=
  match fallocateSys mode off n s with
  | (.ok (), s) => (.ok true, s)
  | (.error e, s) => if e = .os "EOPNOTSUPP" then (.ok false, s) else (.error e, s)

/-- `_truncate`, `file.py:496-497`; in this module it is only used to grow the file. -/
def truncate (size : Nat) (s : State) : Res State Unit :=
  sys s fun s => (.ok (), { s with data := s.data.take size ++ zeros (size - s.data.length) })

/-- Third part of `FileBackend._zero`, `file.py:437-450`. -/
def zeroTail (env : Env) (s : State) (offset count : Nat) : Res State Nat :=
  if s.canFallocate && decide (s.data.length ≤ offset) then
    andThen (fallocate .allocate offset count s) fun done s =>
      if done then andThen (seek s (offset + count)) fun _ s => (.ok count, s)
      else
        andThen (writeZeros env { s with canFallocate := false } count) fun _ s => (.ok count, s)
  else
    andThen (writeZeros env s count) fun _ s => (.ok count, s)

/-- Second part of `FileBackend._zero`, `file.py:421-435`. -/
def zeroPunch (env : Env) (s : State) (offset count : Nat) : Res State Nat :=
  if s.canPunchHole && s.canFallocate then
    andThen (fallocate .punchHole offset count s) fun punch s =>
      if punch then
        andThen (fallocate .allocate offset count s) fun alloc s =>
          if alloc then andThen (seek s (offset + count)) fun _ s => (.ok count, s)
          else zeroTail env { s with canFallocate := false } offset count
      else zeroTail env { s with canPunchHole := false } offset count
  else zeroTail env s offset count

/-- `FileBackend._zero`, `file.py:404-450`. -/
def zeroFile (env : Env) (s : State) (count : Nat) : Res State Nat :=
  let offset := s.pos
  if s.canZeroRange then
    andThen (fallocate .zeroRange offset count s) fun done s =>
      if done then andThen (seek s (offset + count)) fun _ s => (.ok count, s)
      else zeroPunch env { s with canZeroRange := false } offset count
  else zeroPunch env s offset count

/-- The punching part of `FileBackend._zero_sparse`, `file.py:470-481`. -/
def punchSparse (env : Env) (s : State) (offset count : Nat) : Res State Nat :=
  andThen (fallocate .punchHole offset count s) fun done s =>
    if done then andThen (seek s (offset + count)) fun _ s => (.ok count, s)
    else
      andThen (writeZeros env { s with canPunchHole := false } count) fun _ s => (.ok count, s)

/-- `FileBackend._zero_sparse`, `file.py:452-481`. -/
def zeroSparse (env : Env) (s : State) (count : Nat) : Res State Nat :=
  if s.canPunchHole then
    let offset := s.pos
    let size := s.data.length
    if size < offset + count then
      andThen (truncate (offset + count) s) fun _ s =>
        if size = offset then andThen (seek s (offset + count)) fun _ s => (.ok count, s)
        else punchSparse env s offset count
    else punchSparse env s offset count
  else
    andThen (writeZeros env s count) fun _ s => (.ok count, s)

/-- `fallocate(FALLOC_FL_ZERO_RANGE)` and `BLKZEROOUT` on a block device: fail if the range
is not inside the device.  `backends/file.py:296-315`, `ioutil.c:26-46`. -/
def blkZero (off n : Nat) (s : State) : Res State Unit :=
  sys s fun s =>
    if s.data.length < off + n then (.error (.os "EINVAL"), s)
    else (.ok (), { s with data := writeAt s.data off (zeros n) })

/-- `BlockBackend._zero`, `file.py:287-317` (also `_zero_sparse`, `file.py:322`). -/
def zeroBlock (s : State) (count : Nat) : Res State Nat :=
  let offset := s.pos
  let viaIoctl (s : State) : Res State Nat :=
    andThen (blkZero offset count s) fun _ s =>
    andThen (seek s (offset + count)) fun _ s => (.ok count, s)
  if s.canFallocate then
    match blkZero offset count s with
    | (.ok (), s) => andThen (seek s (offset + count)) fun _ s => (.ok count, s)
    | (.error e, s) =>
      if e = .os "EOPNOTSUPP" ∨ e = .os "ENODEV" then viaIoctl { s with canFallocate := false }
      else (.error e, s)
  else viaIoctl s

/-- `zero`, `file.py:120-139`. -/
def zero (env : Env) (s : State) (count : Nat) : Res State Nat :=
  let start := s.pos
  if !aligned env start || count < env.bs then
    let count := min count (env.bs - start % env.bs)
    writeUnaligned env s (zeros count)
  else
    let count := roundDown count env.bs
    if env.isBlock then zeroBlock s count
    else if env.sparse then zeroSparse env s count
    else zeroFile env s count

/-- `flush`, `file.py:141-143`. -/
def flush (s : State) : Res State Unit := sys s fun s => (.ok (), { s with disk := s.data })

/-- The file and block backends, `file.py:48-506`. -/
def backend (env : Env) : Backend State where
  blockSize := env.bs
  tell s := s.pos
  seek := seek
  readinto := readinto env
  write := write env
  zero := zero env
  flush := flush
  size s := s.data.length

end Imageio.File
