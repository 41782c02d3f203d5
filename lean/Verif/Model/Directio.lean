import Verif.Model.Ops
import Verif.Model.Url
import Verif.Model.File
/-!
`_internal/directio.py`, used by vdsm to import disks from other systems: an upload of a stream, whose size may be unknown, to a
file or block device.
-/
namespace Imageio.Directio
open Imageio.Ops Imageio.Http Imageio.Url

/-- `directio.py:31` the path of the file that is opened, `backends/file.py:37`; `none` is `ValueError`. -/
def target (netlocOk : Str → Bool) (path : Str) : Option Str := (urlparse netlocOk ("file:".toList ++ path)).map Parsed.path

/-- `Write._write_chunk`, `ops.py:167-195`, for an operation without a size; true is the exception `EOF`. -/
def receiveChunk {σ τ : Type} (B : Backend σ) (S : Source τ) (cancel : Nat → Bool) (count : Nat)
    (st : WriteState σ τ) : Except Err Bool × WriteState σ τ :=
  match fill S count st.src with
  | (.error e, t') => (.error e, { st with src := t' })
  | (.ok data, t') =>
    match writeLoop B data.length st.dst 0 data with
    | (.error e, s') => (.error e, { st with src := t', dst := s' })
    | (.ok (), s') =>
      let st' := { dst := s', src := t', done := st.done + data.length, chunks := st.chunks + 1 }
      if data.length < count then (.ok true, st')
      else if cancel st.chunks then (.error .canceled, st')
      else (.ok false, st')

/-- The loop of `Write._run`, `ops.py:157-161`, for an operation without a size: `_todo` is always the size of the buffer
(`ops.py:138-142`), and the loop ends with `EOF`.  The loop needs no fuel; here it runs out only if the stream has no end. -/
def receiveChunks {σ τ : Type} (B : Backend σ) (S : Source τ) (cancel : Nat → Bool) (bufLen : Nat) :
    (fuel : Nat) → WriteState σ τ → Except Err Unit × WriteState σ τ
  | 0, st => (.error .stuck, st)
  | fuel + 1, st =>
    match receiveChunk B S cancel bufLen st with
    | (.error e, st') => (.error e, st')
    | (.ok true, st') => (.ok (), st')
    | (.ok false, st') => receiveChunks B S cancel bufLen fuel st'

/-- The end of `Write._run`, `ops.py:163-165`. -/
def finish {σ τ : Type} (B : Backend σ) (flush : Bool) (st : WriteState σ τ) : Except Err Unit × WriteState σ τ :=
  if flush then
    match B.flush st.dst with
    | (.error e, s') => (.error e, { st with dst := s' })
    | (.ok (), s') => (.ok (), { st with dst := s' })
  else (.ok (), st)

/-- `Receive(path, src, size, offset, flush, buffersize).run()`, `directio.py:22-35`, `ops.py:144-165`, after the file was opened.
With a size this is `Ops.writeRun`. -/
def receiveRun {σ τ : Type} (B : Backend σ) (S : Source τ) (cancel : Nat → Bool) (bufLen : Nat) (size : Option Nat) (offset : Nat)
    (flush : Bool) (fuel : Nat) (s : σ) (t : τ) : Except Err Unit × WriteState σ τ :=
  match size with
  | some size => writeRun B S cancel bufLen size offset flush s t
  | none =>
    match B.seek s offset with
    | (.error e, s') => (.error e, ⟨s', t, 0, 0⟩)
    | (.ok (), s') =>
      let st : WriteState σ τ := ⟨s', t, 0, 0⟩
      let unaligned := offset % B.blockSize
      let first :=
        if unaligned ≠ 0 then receiveChunk B S cancel (min bufLen (B.blockSize - unaligned)) st
        else (.ok false, st)
      match first with
      | (.error e, st) => (.error e, st)
      | (.ok true, st) => finish B flush st
      | (.ok false, st) =>
        match receiveChunks B S cancel bufLen fuel st with
        | (.error e, st) => (.error e, st)
        | (.ok (), st) => finish B flush st

/-- The resources of a `Receive`: its file and its buffer, `directio.py:32-33`. -/
structure Resources where
  file : Bool
  buffer : Bool
deriving DecidableEq, Repr

/-- `Receive.close()`, `directio.py:37-47`.  `closed` is false when closing the file raises.  There is no `close` in `ops.Write`
and `ops.Operation` (`ops.py:22-75`, `124-195`), so `super().close()` raises `AttributeError`. -/
def close (closed : Bool) (r : Resources) : Except Err Unit × Resources :=
  if r.file then
    if closed then (.error (.exception "AttributeError"), ⟨false, false⟩)
    else (.error (.os "EIO"), { r with file := false })
  else (.ok (), r)

/-- The chunks of `UnbufferedStream`, `util.py:139-155`: the source of the tests of `Receive`, with the semantics of a libvirt
stream. -/
def streamRead : List Bytes → Nat → Bytes × List Bytes
  | [], _ => ([], [])
  | c :: r, n => (c.take n, if c.drop n = [] then r else c.drop n :: r)

/-- `UnbufferedStream` as a source, `util.py:124-155`. -/
def stream : Source (List Bytes) where
  readinto l n := (.ok (streamRead l n).1, (streamRead l n).2)

end Imageio.Directio
