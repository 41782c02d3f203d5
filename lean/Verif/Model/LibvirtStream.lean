import Verif.Model.SparseStream

/-!
Copying a libvirt volume to the server, `examples/libvirt-stream`, over the HTTP backend of the
client.

The libvirt stream is the environment.  Simplifications: the progress bar is not modelled (C66);
opening and closing of libvirt and of the client, and `stream.finish()`, are not modelled.
-/
namespace Imageio.LibvirtStream
open HttpBackend SparseStream

/-- The parts of a sparse stream of a volume.  `examples/libvirt-stream:144-147`. -/
inductive Seg where
  | data (bytes : Bytes)
  | hole (length : Nat)
deriving DecidableEq, Repr

/-- What a call of the stream does: it raises, would block, or returns at most this number of bytes,
plus one.  `examples/libvirt-stream:99-101`, `114`. -/
inductive Call where
  | fail
  | block
  | most (k : Nat)
deriving DecidableEq, Repr

/-- The libvirt stream: what was not received yet, and what the following calls do.
`examples/libvirt-stream:144-147`. -/
structure Stream where
  segs : List Seg
  calls : List Call
deriving DecidableEq, Repr

/-- The results of `recvFlags` with `VIR_STREAM_RECV_STOP_AT_HOLE`: bytes, -3, or -2.
`examples/libvirt-stream:99-107`. -/
inductive Received where
  | bytes (d : Bytes)
  | hole
  | block
deriving DecidableEq, Repr

/-- `stream.recvFlags(n, flags=VIR_STREAM_RECV_STOP_AT_HOLE)`; no bytes at the end of the stream.
`examples/libvirt-stream:99-101`. -/
def Stream.recv (s : Stream) (n : Nat) : Res Stream Received :=
  let rest := s.calls.tail
  match s.calls.headD (.most n) with
  | .fail => (.error (.exception "libvirtError"), { s with calls := rest })
  | .block => (.ok .block, { s with calls := rest })
  | .most k =>
    match s.segs with
    | [] => (.ok (.bytes []), ⟨[], rest⟩)
    | .hole m :: t => (.ok .hole, ⟨.hole m :: t, rest⟩)
    | .data d :: t =>
      let m := min n (k + 1)
      (.ok (.bytes (d.take m)), ⟨if d.length ≤ m then t else .data (d.drop m) :: t, rest⟩)

/-- `stream.recvHole()`: the length of the hole at the current position.
`examples/libvirt-stream:114`. -/
def Stream.recvHole (s : Stream) : Res Stream Nat :=
  match s.calls.headD (.most 0) with
  | .fail => (.error (.exception "libvirtError"), { s with calls := s.calls.tail })
  | _ =>
    match s.segs with
    | .hole m :: t => (.ok m, ⟨t, s.calls.tail⟩)
    | _ => (.ok 0, { s with calls := s.calls.tail })

/-- The number of steps left to the end of the stream; for termination.
`examples/libvirt-stream:97-132`. -/
def Stream.left (s : Stream) : Nat :=
  (s.segs.map fun | .data d => d.length + 1 | .hole _ => 1).sum

/-- `client.write(offset, buffer)`.  `client/_api.py:402-418`. -/
def clientWrite {σ : Type} (S : Server σ) (offset : Nat) (buf : Bytes) (w : World σ) :
    Res (World σ) Unit :=
  match HttpBackend.size S w with
  | (.error e, w) => (.error e, w)
  | (.ok size, w) =>
    if offset + buf.length > size then (.error (.exception "RuntimeError"), w)
    else
      match HttpBackend.write S (seek w offset).2 buf with
      | (.error e, w) => (.error e, w)
      | (.ok _, w) => (.ok (), w)

/-- `examples/libvirt-stream:164-169` the body of the loop for a frame that was yielded; the data
of an empty frame is false. -/
def copyFrame {σ : Type} (S : Server σ) (start length : Nat) (data : Option Bytes) (w : World σ) :
    Res (World σ) Unit :=
  match data with
  | some (b :: d) => clientWrite S start (b :: d) w
  | _ =>
    match clientZero S start length w with
    | (.error e, w) => (.error e, w)
    | (.ok _, w) => (.ok (), w)

/-- `examples/libvirt-stream:108-112`, `121-123`: yield the data in the buffer, if there is any. -/
def yieldBuffer {σ : Type} (S : Server σ) (offset : Nat) (buf : Bytes) (w : World σ) :
    Res (World σ) Unit :=
  if buf.length ≠ 0 then copyFrame S offset buf.length (some buf) w else (.ok (), w)

theorem Stream.recv_left {s s' : Stream} {n : Nat} {b : Byte} {d : Bytes}
    (h : s.recv n = (.ok (.bytes (b :: d)), s')) : s'.left < s.left := by
  unfold Stream.recv at h
  simp only at h
  split at h
  · simp only [Prod.mk.injEq, reduceCtorEq, false_and] at h
  · simp only [Prod.mk.injEq, Except.ok.injEq, reduceCtorEq, false_and] at h
  · rename_i k _
    split at h
    · simp only [Prod.mk.injEq, Except.ok.injEq, Received.bytes.injEq, reduceCtorEq, false_and] at h
    · simp only [Prod.mk.injEq, Except.ok.injEq, reduceCtorEq, false_and] at h
    · rename_i x t ht
      simp only [Prod.mk.injEq, Except.ok.injEq, Received.bytes.injEq] at h
      obtain ⟨h1, rfl⟩ := h
      unfold Stream.left
      rw [ht]
      have hlen := congrArg List.length h1
      simp only [List.length_take, List.length_cons] at hlen
      split
      · simp only [List.map_cons, List.sum_cons]; omega
      · simp only [List.map_cons, List.sum_cons, List.length_drop]; omega

theorem Stream.recv_hole_left {s s1 s2 : Stream} {n m : Nat} (h : s.recv n = (.ok .hole, s1))
    (h2 : s1.recvHole = (.ok m, s2)) : s2.left < s.left := by
  unfold Stream.recv at h
  simp only at h
  split at h
  · simp only [Prod.mk.injEq, reduceCtorEq, false_and] at h
  · simp only [Prod.mk.injEq, Except.ok.injEq, reduceCtorEq, false_and] at h
  · split at h
    · simp only [Prod.mk.injEq, Except.ok.injEq, reduceCtorEq, false_and] at h
    · rename_i x t ht
      simp only [Prod.mk.injEq, true_and] at h
      subst h
      unfold Stream.recvHole at h2
      simp only at h2
      split at h2
      · simp only [Prod.mk.injEq, reduceCtorEq, false_and] at h2
      · simp only [Prod.mk.injEq, Except.ok.injEq] at h2
        obtain ⟨-, rfl⟩ := h2
        unfold Stream.left
        rw [ht]
        simp only [List.map_cons, List.sum_cons]; omega
    · simp only [Prod.mk.injEq, Except.ok.injEq, reduceCtorEq, false_and] at h

/-- `iter_frames`, `examples/libvirt-stream:77-132`, and the loop that uses its frames,
`164-169`; `buf` are the bytes in the buffer of `size` bytes, `length` is their number. -/
def copyLoop {σ : Type} (S : Server σ) (size : Nat) (offset : Nat) (buf : Bytes) (s : Stream)
    (w : World σ) : Except Err Unit × World σ × Stream :=
  match _h : s.recv (size - buf.length) with
  | (.error e, s) => (.error e, w, s)
  | (.ok .block, s) => (.error (.exception "RuntimeError"), w, s)
  | (.ok .hole, s1) =>
    match yieldBuffer S offset buf w with
    | (.error e, w) => (.error e, w, s1)
    | (.ok (), w) =>
      let offset := offset + buf.length
      let length := 0
      match _h2 : s1.recvHole with
      | (.error e, s) => (.error e, w, s)
      | (.ok n, s2) =>
        match copyFrame S offset n none w with
        | (.error e, w) => (.error e, w, s2)
        | (.ok (), w) => copyLoop S size (offset + length) [] s2 w
  | (.ok (.bytes []), s) =>
    match yieldBuffer S offset buf w with
    | (.error e, w) => (.error e, w, s)
    | (.ok (), w) => (.ok (), w, s)
  | (.ok (.bytes (b :: d)), s1) =>
    let buf := buf ++ b :: d
    if buf.length = size then
      match copyFrame S offset buf.length (some buf) w with
      | (.error e, w) => (.error e, w, s1)
      | (.ok (), w) => copyLoop S size (offset + buf.length) [] s1 w
    else copyLoop S size offset buf s1 w
termination_by s.left
decreasing_by
  · exact Stream.recv_hole_left _h _h2
  · exact Stream.recv_left _h
  · exact Stream.recv_left _h

/-- `examples/libvirt-stream:171-175`: zero the rest of a larger disk. -/
def zeroRest {σ : Type} (S : Server σ) (srcSize dstSize : Nat) (w : World σ) :
    Res (World σ) Unit :=
  if dstSize > srcSize then
    match clientZero S srcSize (dstSize - srcSize) w with
    | (.error e, w) => (.error e, w)
    | (.ok _, w) => (.ok (), w)
  else (.ok (), w)

/-- The script, `examples/libvirt-stream:153-179`; `srcSize` is `vol.info()[1]`, `bufSize` is
`buffer_size`. -/
def copyVolume {σ : Type} (S : Server σ) (bufSize srcSize : Nat) (s : Stream) (w : World σ) :
    Except Err Unit × World σ × Stream :=
  match HttpBackend.size S w with
  | (.error e, w) => (.error e, w, s)
  | (.ok dstSize, w) =>
    if srcSize > dstSize then (.error (.exception "RuntimeError"), w, s)
    else
      match copyLoop S bufSize 0 [] s w with
      | (.error e, w, s) => (.error e, w, s)
      | (.ok (), w, s) =>
        match zeroRest S srcSize dstSize w with
        | (.error e, w) => (.error e, w, s)
        | (.ok (), w) =>
          match HttpBackend.flush S w with
          | (.error e, w) => (.error e, w, s)
          | (.ok (), w) => (.ok (), w, s)

end Imageio.LibvirtStream
