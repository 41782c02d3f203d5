import Verif.Model.File
import Verif.Model.NbdBackend
import Verif.Model.Ops

/-!
Several connections that write to one image at the same time: the server runs a thread for every
connection (`_internal/http.py:63-68` `ThreadingMixIn`), every connection has its own clone
of the backend (`handlers/images.py`, `auth.py`), and the system calls of the threads interleave.

A program is what one thread does: a sequence of atomic steps on its view of the system, the local
attributes of its backend and the shared storage.  Programs for `ops.py` and the backends are
written again here as sequences of system calls; `Lemmas/Concurrent.lean` shows that running one of
them alone is the function of `Model/Ops.lean`, `Model/File.lean` and `Model/NbdBackend.lean`.
-/
namespace Imageio.Conc

/-- The rest of a thread: it ended with a value or an exception, or does an atomic step, and
continues depending on what it saw.
Used for the programs of `ops.py` and `backends/file.py` below; the threads are those of `http.py:63`. -/
inductive Prog (σ α : Type) where
  | ret (r : Except Err α)
  | step (f : σ → σ) (k : σ → Prog σ α)

namespace Prog
variable {σ α β : Type}

/-- Running a program without other threads.  A helper, not a function of the code. -/
def run : Prog σ α → σ → Res σ α
  | .ret r, s => (r, s)
  | .step f k, s => run (k s) (f s)

/-- Sequencing; an exception stops.  The sequence of statements of the code; a helper. -/
def bind : Prog σ α → (α → Prog σ β) → Prog σ β
  | .ret (.ok a), g => g a
  | .ret (.error e), _ => .ret (.error e)
  | .step f k, g => .step f fun s => bind (k s) g

/-- An atomic step with a result: one system call.  Used for the system calls of `backends/file.py:72-185`. -/
def call (f : σ → Res σ α) : Prog σ α := .step (fun s => (f s).2) fun s => .ret (f s).1

/-- Look at an attribute of the backend object; the threads do not share it.
Used for `backends/file.py:78`, `92-95`. -/
def asks (f : σ → α) : Prog σ α := call fun s => (.ok (f s), s)

/-- A return statement of the code; a helper. -/
def pure (a : α) : Prog σ α := .ret (.ok a)

end Prog

open Prog

/-- A backend as programs.
The methods of `backends/file.py:72-185` and `backends/nbd.py:93-221` that `ops.py:124-238` uses. -/
structure ProgBackend (σ : Type) where
  blockSize : Nat
  seek : Nat → Prog σ Unit
  write : (addr : Nat) → Bytes → Prog σ Nat
  zero : Nat → Prog σ Nat
  flush : Prog σ Unit

/-! ### The file backend -/

/-- `_write_unaligned`, `file.py:215-219`: read the block at `start`; seeking is local. -/
def readBlock (env : File.Env) (start : Nat) (s : File.State) : Res File.State Bytes :=
  match File.readinto env { s with pos := start } env.bs with
  | (.error e, s) => (.error e, s)
  | (.ok got, s) => (.ok (got ++ zeros (env.bs - got.length)), { s with pos := start })

/-- `_write_unaligned`, `file.py:193-234`: two system calls. -/
def writeUnalignedP (env : File.Env) (buf : Bytes) : Prog File.State Nat :=
  bind (asks (·.pos)) fun start =>
  let offset := start % env.bs
  let count := min buf.length (env.bs - offset)
  bind (call (readBlock env (start - offset))) fun block =>
  bind (call fun s =>
    File.fioWrite env s 0 (block.take offset ++ buf.take count ++ block.drop (offset + count))) fun _ =>
  bind (call fun s => File.seek s (start + count)) fun _ => pure count

/-- `write`, `file.py:77-89`. -/
def fileWriteP (env : File.Env) (addr : Nat) (buf : Bytes) : Prog File.State Nat :=
  bind (asks (·.pos)) fun pos =>
  if !File.aligned env pos || buf.length < env.bs then writeUnalignedP env buf
  else if File.aligned env buf.length then call fun s => File.fioWrite env s addr buf
  else call fun s => File.fioWrite env s addr (buf.take (roundDown buf.length env.bs))

/-- `BlockBackend._zero`, `file.py:287-317`: one or two system calls. -/
def zeroBlockP (count : Nat) : Prog File.State Nat :=
  bind (asks (·.pos)) fun offset =>
  let viaIoctl : Prog File.State Nat :=
    bind (call (File.blkZero offset count)) fun _ =>
    bind (call fun s => File.seek s (offset + count)) fun _ => pure count
  bind (asks (·.canFallocate)) fun can =>
  if can then
    bind (call fun s => (.ok (File.blkZero offset count s).1, (File.blkZero offset count s).2)) fun r =>
    match r with
    | .ok () => bind (call fun s => File.seek s (offset + count)) fun _ => pure count
    | .error e =>
      if e = .os "EOPNOTSUPP" ∨ e = .os "ENODEV" then
        bind (call fun s => (.ok (), { s with canFallocate := false })) fun _ => viaIoctl
      else .ret (.error e)
  else viaIoctl

/-- `_write_zeros`, `file.py:499-506`, see `File.writeZerosLoop`. -/
def writeZerosLoopP (env : File.Env) (bufSize : Nat) : (fuel : Nat) → (count : Nat) → Prog File.State Unit
  | fuel, count =>
    if count = 0 then pure ()
    else
      match fuel with
      | 0 => .ret (.error .stuck)
      | fuel + 1 =>
        bind (fileWriteP env 0 (zeros (min count bufSize))) fun n => writeZerosLoopP env bufSize fuel (count - n)

/-- The end of `_zero` and `_zero_sparse`: `_write_zeros`, `file.py:448-450`, `file.py:479-481`. -/
def writeZerosP (env : File.Env) (count : Nat) : Prog File.State Nat :=
  bind (writeZerosLoopP env (min count File.mib) count count) fun _ => pure count

/-- Seek after the zeroed range.  `backends/file.py:415`, `428`, `442`. -/
def zeroedP (offset count : Nat) : Prog File.State Nat :=
  bind (call fun s => File.seek s (offset + count)) fun _ => pure count

/-- Change an attribute of the backend.  For example `backends/file.py:419`, `435`, `446`. -/
def setP (f : File.State → File.State) : Prog File.State Unit := call fun s => (.ok (), f s)

/-- Third part of `FileBackend._zero`, `file.py:437-450`: `fstat` and `fallocate` are two system
calls. -/
def zeroTailP (env : File.Env) (offset count : Nat) : Prog File.State Nat :=
  bind (asks (·.canFallocate)) fun can =>
  if can then
    bind (call fun s => (.ok s.data.length, s)) fun size =>
    if size ≤ offset then
      bind (call (File.fallocate .allocate offset count)) fun done =>
      if done then zeroedP offset count
      else bind (setP fun s => { s with canFallocate := false }) fun _ => writeZerosP env count
    else writeZerosP env count
  else writeZerosP env count

/-- Second part of `FileBackend._zero`, `file.py:421-435`. -/
def zeroPunchP (env : File.Env) (offset count : Nat) : Prog File.State Nat :=
  bind (asks fun s => s.canPunchHole && s.canFallocate) fun can =>
  if can then
    bind (call (File.fallocate .punchHole offset count)) fun punch =>
    if punch then
      bind (call (File.fallocate .allocate offset count)) fun alloc =>
      if alloc then zeroedP offset count
      else bind (setP fun s => { s with canFallocate := false }) fun _ => zeroTailP env offset count
    else bind (setP fun s => { s with canPunchHole := false }) fun _ => zeroTailP env offset count
  else zeroTailP env offset count

/-- `FileBackend._zero`, `file.py:404-450`. -/
def zeroFileP (env : File.Env) (count : Nat) : Prog File.State Nat :=
  bind (asks (·.pos)) fun offset =>
  bind (asks (·.canZeroRange)) fun can =>
  if can then
    bind (call (File.fallocate .zeroRange offset count)) fun done =>
    if done then zeroedP offset count
    else bind (setP fun s => { s with canZeroRange := false }) fun _ => zeroPunchP env offset count
  else zeroPunchP env offset count

/-- The punching part of `FileBackend._zero_sparse`, `file.py:470-481`. -/
def punchSparseP (env : File.Env) (offset count : Nat) : Prog File.State Nat :=
  bind (call (File.fallocate .punchHole offset count)) fun done =>
  if done then zeroedP offset count
  else bind (setP fun s => { s with canPunchHole := false }) fun _ => writeZerosP env count

/-- `FileBackend._zero_sparse`, `file.py:452-481`: `fstat` and `truncate` are two system calls. -/
def zeroSparseP (env : File.Env) (count : Nat) : Prog File.State Nat :=
  bind (asks (·.canPunchHole)) fun can =>
  if can then
    bind (asks (·.pos)) fun offset =>
    bind (call fun s => (.ok s.data.length, s)) fun size =>
    if size < offset + count then
      bind (call (File.truncate (offset + count))) fun _ =>
      if size = offset then zeroedP offset count else punchSparseP env offset count
    else punchSparseP env offset count
  else writeZerosP env count

/-- `zero`, `file.py:120-139`. -/
def fileZeroP (env : File.Env) (count : Nat) : Prog File.State Nat :=
  bind (asks (·.pos)) fun start =>
  if !File.aligned env start || count < env.bs then
    writeUnalignedP env (zeros (min count (env.bs - start % env.bs)))
  else if env.isBlock then zeroBlockP (roundDown count env.bs)
  else if env.sparse then zeroSparseP env (roundDown count env.bs)
  else zeroFileP env (roundDown count env.bs)

/-- The file and block backends, `file.py:48-506`. -/
def fileP (env : File.Env) : ProgBackend File.State where
  blockSize := env.bs
  seek n := call fun s => File.seek s n
  write := fileWriteP env
  zero := fileZeroP env
  flush := call File.flush

/-! ### The NBD backend -/

/-- The NBD backend: every method is at most one request, and the server handles the requests on an
image one after the other.  (A request that modifies a part of a block of the storage below the
server is not modelled).  `backends/nbd.py:93-221`. -/
def nbdP (bs : Nat) : ProgBackend NbdBackend.State where
  blockSize := bs
  seek n := call fun s => NbdBackend.seek s n
  write a d := call fun s => NbdBackend.write s a d
  zero n := call fun s => NbdBackend.zero s n
  flush := call NbdBackend.flush

/-! ### The operations -/

variable {σ τ : Type}

/-- `ops.py:180-186`, see `Ops.writeLoop`. -/
def writeLoopP (B : ProgBackend σ) : (fuel : Nat) → (pos : Nat) → Bytes → Prog σ Unit
  | fuel, pos, data =>
    if data.length = 0 then pure ()
    else
      match fuel with
      | 0 => .ret (.error .stuck)
      | fuel + 1 => bind (B.write pos data) fun n => writeLoopP B fuel (pos + n) (data.drop n)

/-- The local state of a write operation: the source, `_done`, and the number of chunks.
`ops.py:27-33`, `131-140`. -/
structure Loc (τ : Type) where
  src : τ
  done : Nat
  chunks : Nat

/-- `Write._write_chunk`, `ops.py:167-195`, see `Ops.writeChunk`.  Receiving is not shared. -/
def writeChunkP (B : ProgBackend σ) (S : Source τ) (cancel : Nat → Bool) (size count : Nat)
    (l : Loc τ) : Prog σ (Loc τ) :=
  match Ops.fill S count l.src with
  | (.error e, _) => .ret (.error e)
  | (.ok data, t) =>
    bind (writeLoopP B data.length 0 data) fun _ =>
    let done := l.done + data.length
    if data.length < count then .ret (.error (.partialContent size done))
    else if cancel l.chunks then .ret (.error .canceled)
    else pure ⟨t, done, l.chunks + 1⟩

/-- `Write._run`, `ops.py:157-159`, see `Ops.writeChunks`. -/
def writeChunksP (B : ProgBackend σ) (S : Source τ) (cancel : Nat → Bool) (bufLen size : Nat) :
    (fuel : Nat) → Loc τ → Prog σ (Loc τ)
  | fuel, l =>
    if size - l.done = 0 then pure l
    else
      match fuel with
      | 0 => .ret (.error .stuck)
      | fuel + 1 =>
        bind (writeChunkP B S cancel size (min (size - l.done) bufLen) l) fun l =>
          writeChunksP B S cancel bufLen size fuel l

/-- `Write._run`, `ops.py:144-165`, see `Ops.writeRun`. -/
def writeRunP (B : ProgBackend σ) (S : Source τ) (cancel : Nat → Bool) (bufLen size offset : Nat)
    (flush : Bool) (t : τ) : Prog σ Unit :=
  bind (B.seek offset) fun _ =>
  let unaligned := offset % B.blockSize
  let l : Loc τ := ⟨t, 0, 0⟩
  bind (if unaligned ≠ 0 then writeChunkP B S cancel size (min size (B.blockSize - unaligned)) l
    else pure l) fun l =>
  bind (writeChunksP B S cancel bufLen size size l) fun _ =>
  if flush then B.flush else pure ()

/-- `Zero._run`, `ops.py:227-234`, see `Ops.zeroSteps`. -/
def zeroStepsP (B : ProgBackend σ) (cancel : Nat → Bool) (size : Nat) :
    (fuel : Nat) → (done chunks : Nat) → Prog σ Unit
  | fuel, done, chunks =>
    if size - done = 0 then pure ()
    else
      match fuel with
      | 0 => .ret (.error .stuck)
      | fuel + 1 =>
        bind (B.zero (min (size - done) Ops.maxStep)) fun n =>
          if cancel chunks then .ret (.error .canceled)
          else zeroStepsP B cancel size fuel (done + n) (chunks + 1)

/-- `Zero._run`, `ops.py:224-238`, see `Ops.zeroRun`. -/
def zeroRunP (B : ProgBackend σ) (cancel : Nat → Bool) (size offset : Nat) (flush : Bool) :
    Prog σ Unit :=
  bind (B.seek offset) fun _ =>
  bind (zeroStepsP B cancel size size 0 0) fun _ =>
  if flush then B.flush else pure ()

/-! ### Threads -/

/-- What the threads share: how to take it from the view of a thread, and how to replace it in the
view of another thread.
The attributes of the backends of `backends/file.py:48-70` that are not in the file itself are local. -/
structure Machine (σ Γ : Type) where
  shared : σ → Γ
  view : σ → Γ → σ

/-- The shared storage, the view of every thread (only the local part of it is used), and what the
threads still have to do.
A thread for each connection, `http.py:63`, with its own backend, `backends/__init__.py:73-107`. -/
structure Config (ι σ Γ : Type) where
  mem : Γ
  loc : ι → σ
  prog : ι → Prog σ Unit

/-- One step of thread `i`.  The scheduler; no code. -/
inductive Step {ι σ Γ : Type} [DecidableEq ι] (M : Machine σ Γ) : Config ι σ Γ → Config ι σ Γ → Prop
  | mk (c : Config ι σ Γ) (i : ι) (f : σ → σ) (k : σ → Prog σ Unit) (hp : c.prog i = .step f k) :
    Step M c
      { mem := M.shared (f (M.view (c.loc i) c.mem))
        loc := fun j => if j = i then f (M.view (c.loc i) c.mem) else c.loc j
        prog := fun j => if j = i then k (M.view (c.loc i) c.mem) else c.prog j }

/-- Any number of steps of any threads.  The scheduler; no code. -/
inductive Steps {ι σ Γ : Type} [DecidableEq ι] (M : Machine σ Γ) : Config ι σ Γ → Config ι σ Γ → Prop
  | refl (c : Config ι σ Γ) : Steps M c c
  | tail {a b c : Config ι σ Γ} (h : Steps M a b) (hs : Step M b c) : Steps M a c

/-- Threads with clones of the file backend share the file: its content, and what is durable
(`file.py:236-247` `_clone` opens the same path). -/
def fileMachine : Machine File.State (Bytes × Bytes) where
  shared s := (s.data, s.disk)
  view s g := { s with data := g.1, disk := g.2 }

/-- Threads with clones of the NBD backend share the export (`backends/nbd.py` `clone`).  `backends/nbd.py:68-83`. -/
def nbdMachine : Machine NbdBackend.State (Bytes × Bytes) where
  shared s := (s.export_, s.disk)
  view s g := { s with export_ := g.1, disk := g.2 }

/-! ### Requests -/

/-- What one connection does: PUT of `size` bytes at `offset`, or PATCH zero
(`handlers/images.py:63-72`, `handlers/images.py:188-196`); when the ticket of the request is
canceled, and the size of the buffer of the backend. -/
structure Job (τ : Type) where
  zero : Bool
  offset : Nat
  size : Nat
  flush : Bool
  cancel : Nat → Bool
  bufLen : Nat
  src : τ

/-- The storage part of the request.  `handlers/images.py:63-72`, `188-196`. -/
def Job.prog {σ τ : Type} (B : ProgBackend σ) (S : Source τ) (j : Job τ) : Prog σ Unit :=
  if j.zero then zeroRunP B j.cancel j.size j.offset j.flush
  else writeRunP B S j.cancel j.bufLen j.size j.offset j.flush j.src

/-- The start: an image, and the connections with their backends.  `backends/__init__.py:73-107`. -/
def start {ι σ Γ τ : Type} (B : ProgBackend σ) (S : Source τ) (g : Γ) (loc : ι → σ) (jobs : ι → Job τ) :
    Config ι σ Γ := ⟨g, loc, fun i => (jobs i).prog B S⟩

/-- Run the threads in the given order; a thread that ended does nothing.  The scheduler; no code. -/
def exec {ι σ Γ : Type} [DecidableEq ι] (M : Machine σ Γ) (c : Config ι σ Γ) : List ι → Config ι σ Γ
  | [] => c
  | i :: rest =>
    match c.prog i with
    | .ret _ => exec M c rest
    | .step f k =>
      exec M
        { mem := M.shared (f (M.view (c.loc i) c.mem))
          loc := fun j => if j = i then f (M.view (c.loc i) c.mem) else c.loc j
          prog := fun j => if j = i then k (M.view (c.loc i) c.mem) else c.prog j } rest

end Imageio.Conc
