import Verif.Model.Backend
/-!
Model of `ovirt_imageio/_internal/ops.py`: the read, write, zero and flush operations.

The statistics clock (`stats.py`) is not modelled.  Another thread may call `cancel()`
(`ops.py:60-62`) at any time; the operation looks at the flag after every chunk, so the
effect of all schedules is a function `cancel : Nat → Bool` telling the value of the flag
after chunk number `n`.
-/
namespace Imageio.Ops

/-- State of `ops.Write` (`ops.py:131-136`): the backend, the source, `_done`, and the number
of chunks completed so far. -/
structure WriteState (σ τ : Type) where
  dst : σ
  src : τ
  done : Nat
  chunks : Nat

/-- The receiving loop of `_write_chunk`, `ops.py:170-178`: fill a view of `want` bytes,
stopping at the end of the source. -/
def fill {τ : Type} (S : Source τ) (want : Nat) (t : τ) : Res τ Bytes :=
  if want = 0 then (.ok [], t)
  else
    match S.readinto t want with
    | (.error e, t') => (.error e, t')
    | (.ok d, t') =>
      if d.length = 0 then (.ok [], t')
      else
        match fill S (want - d.length) t' with
        | (.error e, t'') => (.error e, t'')
        | (.ok d', t'') => (.ok (d ++ d'), t'')
termination_by want
decreasing_by omega

/-- The storing loop of `_write_chunk`, `ops.py:180-186`: write `data`, the rest of the
view, that starts `pos` bytes after the start of the aligned buffer.  A backend that writes
nothing makes the python loop run forever; here the fuel runs out. -/
def writeLoop {σ : Type} (B : Backend σ) : (fuel : Nat) → σ → (pos : Nat) → Bytes → Res σ Unit
  | fuel, s, pos, data =>
    if data.length = 0 then (.ok (), s)
    else
      match fuel with
      | 0 => (.error .stuck, s)
      | fuel + 1 =>
        match B.write s pos data with
        | (.error e, s') => (.error e, s')
        | (.ok n, s') => writeLoop B fuel s' (pos + n) (data.drop n)

/-- `Write._write_chunk`, `ops.py:167-195`, for an operation with a known size. -/
def writeChunk {σ τ : Type} (B : Backend σ) (S : Source τ) (cancel : Nat → Bool) (size count : Nat)
    (st : WriteState σ τ) : Except Err Unit × WriteState σ τ :=
  match fill S count st.src with
  | (.error e, t') => (.error e, { st with src := t' })
  | (.ok data, t') =>
    match writeLoop B data.length st.dst 0 data with
    | (.error e, s') => (.error e, { st with src := t', dst := s' })
    | (.ok (), s') =>
      let st' := { dst := s', src := t', done := st.done + data.length, chunks := st.chunks + 1 }
      if data.length < count then (.error (.partialContent size st'.done), st')
      else if cancel st.chunks then (.error .canceled, st')
      else (.ok (), st')

/-- The loop of `Write._run`, `ops.py:157-159`. -/
def writeChunks {σ τ : Type} (B : Backend σ) (S : Source τ) (cancel : Nat → Bool) (bufLen size : Nat) :
    (fuel : Nat) → WriteState σ τ → Except Err Unit × WriteState σ τ
  | fuel, st =>
    if size - st.done = 0 then (.ok (), st)
    else
      match fuel with
      | 0 => (.error .stuck, st)
      | fuel + 1 =>
        match writeChunk B S cancel size (min (size - st.done) bufLen) st with
        | (.error e, st') => (.error e, st')
        | (.ok (), st') => writeChunks B S cancel bufLen size fuel st'

/-- `Write._run`, `ops.py:144-165`, for an operation with a known size, the only use in the
server (`handlers/images.py:63-70`).  The fuel is the size: every chunk makes progress. -/
def writeRun {σ τ : Type} (B : Backend σ) (S : Source τ) (cancel : Nat → Bool) (bufLen size offset : Nat)
    (flush : Bool) (s : σ) (t : τ) : Except Err Unit × WriteState σ τ :=
  match B.seek s offset with
  | (.error e, s') => (.error e, ⟨s', t, 0, 0⟩)
  | (.ok (), s') =>
    let st : WriteState σ τ := ⟨s', t, 0, 0⟩
    let unaligned := offset % B.blockSize
    let first :=
      if unaligned ≠ 0 then writeChunk B S cancel size (min size (B.blockSize - unaligned)) st
      else (.ok (), st)
    match first with
    | (.error e, st) => (.error e, st)
    | (.ok (), st) =>
      match writeChunks B S cancel bufLen size size st with
      | (.error e, st) => (.error e, st)
      | (.ok (), st) =>
        if flush then
          match B.flush st.dst with
          | (.error e, s') => (.error e, { st with dst := s' })
          | (.ok (), s') => (.ok (), { st with dst := s' })
        else (.ok (), st)

/-- State of `ops.Zero` (`ops.py:219-222`). -/
structure ZeroState (σ : Type) where
  dst : σ
  done : Nat
  chunks : Nat

/-- `Zero.MAX_STEP`, `ops.py:217`. -/
def maxStep : Nat := 128 * 1024 * 1024

/-- The loop of `Zero._run`, `ops.py:227-234`. -/
def zeroSteps {σ : Type} (B : Backend σ) (cancel : Nat → Bool) (size : Nat) :
    (fuel : Nat) → ZeroState σ → Except Err Unit × ZeroState σ
  | fuel, st =>
    if size - st.done = 0 then (.ok (), st)
    else
      match fuel with
      | 0 => (.error .stuck, st)
      | fuel + 1 =>
        match B.zero st.dst (min (size - st.done) maxStep) with
        | (.error e, s') => (.error e, { st with dst := s' })
        | (.ok n, s') =>
          let st' := { dst := s', done := st.done + n, chunks := st.chunks + 1 }
          if cancel st.chunks then (.error .canceled, st')
          else zeroSteps B cancel size fuel st'

/-- `Zero._run`, `ops.py:224-238`. -/
def zeroRun {σ : Type} (B : Backend σ) (cancel : Nat → Bool) (size offset : Nat) (flush : Bool) (s : σ) :
    Except Err Unit × ZeroState σ :=
  match B.seek s offset with
  | (.error e, s') => (.error e, ⟨s', 0, 0⟩)
  | (.ok (), s') =>
    match zeroSteps B cancel size size ⟨s', 0, 0⟩ with
    | (.error e, st) => (.error e, st)
    | (.ok (), st) =>
      if flush then
        match B.flush st.dst with
        | (.error e, s') => (.error e, { st with dst := s' })
        | (.ok (), s') => (.ok (), { st with dst := s' })
      else (.ok (), st)

/-- `Flush._run`, `ops.py:252-253`. -/
def flushRun {σ : Type} (B : Backend σ) (s : σ) : Res σ Unit := B.flush s

/-- State of `ops.Read` (`ops.py:85-88`): the backend, the content of the shared buffer
(`backends/__init__.py:27-37`), the bytes written to the response so far and `_done`.
`size` and `done` are python integers: the GET handler can pass a negative size. -/
structure ReadState (σ : Type) where
  src : σ
  buf : Bytes
  out : Bytes
  done : Int
  chunks : Nat

/-- `Read._read_chunk`, `ops.py:98-121`.  `sink n` tells if writing chunk number `n` to the
response fails (client disconnected). -/
def readChunk {σ : Type} (B : Backend σ) (cancel sink : Nat → Bool) (size : Int) (skip : Nat)
    (st : ReadState σ) : Except Err Unit × ReadState σ :=
  if B.tell st.src % B.blockSize ≠ 0 then (.error (.partialContent size st.done), st)
  else
    let todo := size - st.done
    let alignedTodo := roundUp todo B.blockSize
    match B.readinto st.src (pySlice st.buf 0 alignedTodo).length with
    | (.error e, s') => (.error e, { st with src := s' })
    | (.ok data, s') =>
      let st := { st with src := s', buf := data ++ st.buf.drop data.length }
      if data.length = 0 then (.error (.partialContent size st.done), st)
      else
        let n : Int := min ((data.length : Int) - skip) todo
        if sink st.chunks then (.error (.exception "write to client"), st)
        else
          let st' := { st with out := st.out ++ pySlice st.buf skip (skip + n),
                               done := st.done + n, chunks := st.chunks + 1 }
          if cancel st.chunks then (.error .canceled, st')
          else (.ok (), st')

/-- The loop of `Read._run`, `ops.py:95-96`: python `while self._todo` also runs for a
negative value. -/
def readChunks {σ : Type} (B : Backend σ) (cancel sink : Nat → Bool) (size : Int) :
    (fuel : Nat) → ReadState σ → Except Err Unit × ReadState σ
  | fuel, st =>
    if size - st.done = 0 then (.ok (), st)
    else
      match fuel with
      | 0 => (.error .stuck, st)
      | fuel + 1 =>
        match readChunk B cancel sink size 0 st with
        | (.error e, st') => (.error e, st')
        | (.ok (), st') => readChunks B cancel sink size fuel st'

/-- `Read._run`, `ops.py:90-96`. -/
def readRun {σ : Type} (B : Backend σ) (cancel sink : Nat → Bool) (buf : Bytes) (size : Int) (offset : Nat)
    (s : σ) : Except Err Unit × ReadState σ :=
  let skip := offset % B.blockSize
  match B.seek s (offset - skip) with
  | (.error e, s') => (.error e, ⟨s', buf, [], 0, 0⟩)
  | (.ok (), s') =>
    let st : ReadState σ := ⟨s', buf, [], 0, 0⟩
    let first := if skip ≠ 0 then readChunk B cancel sink size skip st else (.ok (), st)
    match first with
    | (.error e, st) => (.error e, st)
    | (.ok (), st) => readChunks B cancel sink size (size.natAbs + 1) st

end Imageio.Ops
