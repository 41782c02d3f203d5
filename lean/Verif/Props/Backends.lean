import Verif.Props.Patch

/-!
The properties of uploads on the concrete backends: unaligned writes (C09), and concrete
cases of the theorems about the handlers.
-/
namespace Imageio.Props
open Imageio.Http Imageio.Images Imageio.Spec Imageio.Ops

/-! ## C09: writes to files and block devices -/

/-- C09: one write call on a file or block device opened with direct I/O, at any position,
with any data.  It stores a non empty part of the data; all the other bytes keep their value,
including those in the same blocks; bytes added after the end of the file are zero; the file
never shrinks, and grows at most to the end of the block; a block device keeps its size. -/
theorem C09_write_exact (env : File.Env) (hb : 0 < env.bs) (s s' : File.State)
    (hblk : env.isBlock = true → s.data.length % env.bs = 0) (addr n : Nat) (d : Bytes)
    (hd : d ≠ []) (h : File.write env s addr d = (.ok n, s')) :
    0 < n ∧ n ≤ d.length ∧
    (∀ i, byteAt s'.data i =
      if s.pos ≤ i ∧ i < s.pos + n then byteAt d (i - s.pos) else byteAt s.data i) ∧
    s'.pos = s.pos + n ∧ s.data.length ≤ s'.data.length ∧
    (∀ m, s.pos + n ≤ m → m % env.bs = 0 → s'.data.length ≤ max s.data.length m) ∧
    (env.isBlock = true → s'.data.length = s.data.length) := by
  obtain ⟨w1, w2, c1, c2, c3, c4, c5, c6⟩ := File.write_ok hb hblk hd h
  have hl : (d.take n).length = n := by rw [List.length_take]; omega
  rw [hl] at c2 c4
  refine ⟨w1, w2, fun i => ?_, c2, c3, fun m hm hm2 => ?_, c5⟩
  · rw [c1]
    unfold store
    rw [hl]
    split
    · rename_i hi
      simp only [byteAt, List.getD_eq_getElem?_getD]
      rw [List.getElem?_take, if_pos (by omega)]
    · rfl
  · have e : (s.pos + n + env.bs - 1) / env.bs * env.bs ≤ m := by
      obtain ⟨k, rfl⟩ := Nat.dvd_of_mod_eq_zero hm2
      rw [Nat.mul_comm env.bs k]
      apply Nat.mul_le_mul_right
      rw [Nat.div_le_iff_le_mul_add_pred hb]
      rw [Nat.mul_comm] at hm
      rw [Nat.mul_comm]
      omega
    omega

/-- C09: the file and the device are unchanged by a failed write. -/
theorem C09_write_failed (env : File.Env) (hb : 0 < env.bs) (s s' : File.State) (addr : Nat)
    (d : Bytes) (hd : d ≠ []) (ha : s.pos % env.bs = 0 → env.bs ≤ d.length → addr % env.bs = 0)
    (e : Err) (h : File.write env s addr d = (.error e, s')) : s'.data = s.data :=
  (File.write_err hb hd ha h).1.data

/-- The alignment test of the code, `file.py:187-191`, is divisibility when the block size is
a power of two. -/
theorem C09_aligned (n k : Nat) : (n &&& (2 ^ k - 1) = 0) ↔ n % 2 ^ k = 0 := by
  rw [Nat.and_two_pow_sub_one_eq_mod]

/-- A file of 5 bytes with block size 4: a write of 2 bytes at 6 pads the file to 8 bytes. -/
example : ∃ s', File.write ⟨false, 4, true⟩ ⟨[1, 2, 3, 4, 5], [], 6, true, true, true, [], [], []⟩ 0 [9, 9]
      = (.ok 2, s') ∧ s'.data = [1, 2, 3, 4, 5, 0, 9, 9] := ⟨_, rfl, rfl⟩

/-- An unaligned write in the middle of a block device. -/
example : ∃ s', File.write ⟨true, 4, true⟩
      ⟨[1, 2, 3, 4, 5, 6, 7, 8], [], 3, true, true, true, [], [], []⟩ 0 [9, 9, 9]
      = (.ok 1, s') ∧ s'.data = [1, 2, 3, 9, 5, 6, 7, 8] := ⟨_, rfl, rfl⟩

/-- C09: an upload answered with 200 to a file or block device changed only the uploaded
bytes; the file never shrinks, and what was added around the data is zero.  For any
fragmentation of the request, short reads and writes, block size, buffer size. -/
theorem C09_put_exact (env : File.Env) (hb : 0 < env.bs) (bufLen : Nat) (hbuf : 0 < bufLen)
    (hbs : bufLen % env.bs = 0) (a : Access) (q : PutReq) (s : File.State)
    (hblk : env.isBlock = true → s.data.length % env.bs = 0)
    (c : Conn) (hc : Fresh c) (body next : Bytes) (ha : Announces c.req.header body.length)
    (hr : c.rest = body ++ next) (lost : Bool) (s' : File.State)
    (hs' : s' = (serve lost (put (File.backend env) bufLen a q s c)).1)
    (hok : (serve lost (put (File.backend env) bufLen a q s c)).2.sent = [200]) :
    ∃ offset, UploadOffset q.contentRange offset ∧
      (∀ i, byteAt s'.data i =
        if offset ≤ i ∧ i < offset + body.length then byteAt body (i - offset)
        else byteAt s.data i) ∧
      s.data.length ≤ s'.data.length ∧
      (∀ m, offset + body.length ≤ m → m % env.bs = 0 → s'.data.length ≤ max s.data.length m) ∧
      (env.isBlock = true → s'.data.length = s.data.length) := by
  subst hs'
  by_cases hk : env.isBlock = true
  · have hp := put_post (File.lawful env hb False s.data.length (hblk hk)) bufLen hbuf hbs a q s
      ⟨fun _ => rfl, False.elim⟩ c.rest body.length c (hc.synced ha)
    unfold serve at hok ⊢
    generalize put (File.backend env) bufLen a q s c = x at hok hp
    obtain ⟨r, s', c'⟩ := x
    obtain ⟨hn, hp⟩ := hp
    simp only at hn hp hok ⊢
    cases hp with
    | done offset fl ho hf ha' hnr hnc hle hlen inv content rest =>
      have hlen' := inv.1 hk
      refine ⟨offset, putOffset_spec ho, fun i => ?_, by omega, fun m _ _ => by omega, fun _ => hlen'⟩
      rw [show byteAt s'.data i = store (byteAt s.data) offset (List.take body.length c.rest) i from
        congrFun content i, hr, List.take_left]
      rfl
    | refused e he => exact absurd hok (not_success hc hn he (by decide) lost)
    | part offset k e he => exact absurd hok (not_success hc hn he (by decide) lost)
    | failed offset e he => exact absurd hok (not_success hc hn he (by decide) lost)
  · have hp := put_post (File.lawful env hb False 0 (Nat.zero_mod _)) bufLen hbuf hbs a q s
      ⟨fun h => absurd h hk, False.elim⟩ c.rest body.length c (hc.synced ha)
    unfold serve at hok ⊢
    generalize put (File.backend env) bufLen a q s c = x at hok hp
    obtain ⟨r, s', c'⟩ := x
    obtain ⟨hn, hp⟩ := hp
    simp only at hn hp hok ⊢
    cases hp with
    | done offset fl ho hf ha' hnr hnc hle hlen inv content rest size_ge size_le =>
      simp only [File.backend] at size_ge size_le
      refine ⟨offset, putOffset_spec ho, fun i => ?_, size_ge, fun m hm hm2 => ?_, fun h => absurd h hk⟩
      · rw [show byteAt s'.data i = store (byteAt s.data) offset (List.take body.length c.rest) i from
          congrFun content i, hr, List.take_left]
        rfl
      · have e : (offset + body.length + env.bs - 1) / env.bs * env.bs ≤ m := by
          obtain ⟨k, rfl⟩ := Nat.dvd_of_mod_eq_zero hm2
          rw [Nat.mul_comm env.bs k]
          apply Nat.mul_le_mul_right
          rw [Nat.div_le_iff_le_mul_add_pred hb]
          rw [Nat.mul_comm] at hm
          rw [Nat.mul_comm]
          omega
        omega
    | refused e he => exact absurd hok (not_success hc hn he (by decide) lost)
    | part offset k e he => exact absurd hok (not_success hc hn he (by decide) lost)
    | failed offset e he => exact absurd hok (not_success hc hn he (by decide) lost)

/-! ## Concrete cases -/

/-- An authorized request with a ticket of `size` bytes. -/
def authorized (size : Int) : Access := ⟨none, size, false, fun _ => false, false, by simp⟩

/-- A connection with the body `body` of the current request, in small pieces, and the start
of the next request. -/
def busy (len : String) (body : Bytes) : Conn :=
  { req := { header := some len.toList }, rest := body ++ [71, 69, 84], recvs := [.got 0, .got 1] }

example (len : String) (body : Bytes) : Fresh (busy len body) := ⟨rfl, rfl, rfl, rfl, rfl, rfl, rfl⟩

theorem number_3 : Number "3".toList 3 :=
  ⟨by decide, by have := Decimal.snoc (d := '3') .nil (by decide); exact this⟩

example : Announces (busy "3" [7, 8, 9]).req.header 3 := .inr ⟨_, rfl, number_3⟩

/-- An upload of 3 bytes at offset 3 of a block device with 4 bytes blocks: the connection
delivers the body in pieces; the device changes exactly there. -/
def filePut : File.State × Conn :=
  serve false (put (File.backend ⟨true, 4, true⟩) 8 (authorized 8)
    ⟨lit "id", [], some (lit "bytes 3-5/*")⟩
    ⟨[1, 1, 1, 1, 1, 1, 1, 1], [], 0, true, true, true, [], [0], []⟩ (busy "3" [7, 8, 9]))

example : filePut.2.sent = [200] ∧ filePut.1.data = [1, 1, 1, 7, 8, 9, 1, 1] ∧
    filePut.1.disk = filePut.1.data ∧ filePut.2.rest = [71, 69, 84] := by decide +kernel

/-- The same upload when the client sends only 2 of the 3 bytes. -/
def fileShort : File.State × Conn :=
  serve false (put (File.backend ⟨true, 4, true⟩) 8 (authorized 8)
    ⟨lit "id", [], some (lit "bytes 3-5/*")⟩
    ⟨[1, 1, 1, 1, 1, 1, 1, 1], [], 0, true, true, true, [], [0], []⟩
    { req := { header := some (lit "3") }, rest := [7, 8] })

example : fileShort.2.sent = [400] ∧ fileShort.1.data = [1, 1, 1, 7, 8, 1, 1, 1] := by decide +kernel

/-- A download of a range that is not aligned, from a device with short reads. -/
def fileGet : File.State × Conn :=
  serve false (Images.get (File.backend ⟨true, 4, true⟩) (authorized 12)
    ⟨lit "id", [], some (lit "bytes=3-9")⟩ [0, 0, 0, 0, 0, 0, 0, 0]
    ⟨[1, 2, 3, 4, 5, 6, 7, 8, 9, 10, 11, 12], [], 0, true, true, true, [0, 0], [], []⟩
    { req := { header := none }, rest := [] })

example : fileGet.2.sent = [206] ∧ fileGet.2.body = [4, 5, 6, 7, 8, 9, 10] ∧
    fileGet.2.hdrLength = 7 ∧ fileGet.2.hdrRange = some (lit "bytes 3-9/12") ∧
    fileGet.2.closing = false := by decide +kernel

/-- Zeroing 5 bytes at 2 of a device with 4 bytes blocks. -/
def fileZero : File.State × Conn :=
  serve false (patch (File.backend ⟨true, 4, true⟩) (authorized 8)
    (fun _ => some (.obj [(lit "op", .str (lit "zero")), (lit "size", .int 5), (lit "offset", .int 2),
      (lit "flush", .bool true)]))
    (lit "id") ⟨[1, 2, 3, 4, 5, 6, 7, 8], [], 0, true, true, true, [], [], []⟩
    { req := { header := some (lit "2") }, rest := [123, 125] })

example : fileZero.2.sent = [200] ∧ fileZero.1.data = [1, 2, 0, 0, 0, 0, 0, 8] ∧
    fileZero.1.disk = fileZero.1.data := by decide +kernel

example : ZeroMessage (.obj [("op".toList, .str "zero".toList), ("size".toList, .int 5),
    ("flush".toList, .bool true)]) 5 0 true where
  op := ⟨[], _, rfl, by decide⟩
  size := ⟨_, ⟨[_], _, rfl, by decide⟩, .inl rfl⟩
  offset := .inl ⟨⟨_, rfl, by decide⟩, rfl⟩
  flush := .inr ⟨[_, _], [], rfl, by decide⟩

/-! ## Where the code fails -/

/-- The memory backend with the bytes 1 to 16. -/
def sixteen : Memory.State := ⟨.rw, [1, 2, 3, 4, 5, 6, 7, 8, 9, 10, 11, 12, 13, 14, 15, 16], 0, false⟩

/-- A download with `Range: bytes=6-` and a ticket of 4 bytes. -/
def leak : Memory.State × Conn :=
  serve false (Images.get Memory.backend (authorized (4 : Nat)) ⟨lit "id", [], some (lit "bytes=6-")⟩
    [0, 0, 0, 0, 0, 0, 0, 0] sixteen { req := { header := none }, rest := [] })

/-- C12 does not hold for open ranges that start after the ticket size: the size of the
download is negative, and the buffer is sliced with a negative bound.  With a ticket of 4
bytes the client gets bytes 6 to 11 of the image, and a negative content-length.  The range
should be refused with 416 (C11). -/
theorem C12_counterexample_open_range :
    ¬ (∀ (size : Nat) (q : GetReq) (buf : Bytes) (s : Memory.State) (c : Conn), Fresh c →
      s.closed = false → 0 < buf.length →
      (serve false (Images.get Memory.backend (authorized size) q buf s c)).2.body.length ≤ size) ∧
    leak.2.sent = [206] ∧ leak.2.body = [7, 8, 9, 10, 11, 12] ∧ leak.2.hdrLength = -2 := by
  have h : leak.2.sent = [206] ∧ leak.2.body = [7, 8, 9, 10, 11, 12] ∧ leak.2.hdrLength = -2 := by
    decide +kernel
  refine ⟨fun hall => ?_, h⟩
  have := hall 4 ⟨lit "id", [], some (lit "bytes=6-")⟩ [0, 0, 0, 0, 0, 0, 0, 0] sixteen
    { req := { header := none }, rest := [] } ⟨rfl, rfl, rfl, rfl, rfl, rfl, rfl⟩ rfl (by decide)
  have this : leak.2.body.length ≤ 4 := this
  rw [h.2.1] at this
  exact absurd this (by decide)

/-- A download with `Range: bytes=6-` of an image of 6 bytes with blocks of 4 bytes. -/
def emptyUnaligned : File.State × Conn :=
  serve false (Images.get (File.backend ⟨false, 4, true⟩) (authorized 6)
    ⟨lit "id", [], some (lit "bytes=6-")⟩ [0, 0, 0, 0, 0, 0, 0, 0]
    ⟨[1, 2, 3, 4, 5, 6], [], 0, true, true, true, [], [], []⟩ { req := { header := none }, rest := [] })

/-- The same download from the memory backend, with an image of 6 bytes. -/
def emptyMemory : Memory.State × Conn :=
  serve false (Images.get Memory.backend (authorized 6) ⟨lit "id", [], some (lit "bytes=6-")⟩
    [0, 0, 0, 0, 0, 0, 0, 0] ⟨.rw, [1, 2, 3, 4, 5, 6], 0, false⟩ { req := { header := none }, rest := [] })

/-- C11 for an open range that starts at the end of the image, which selects no byte and
should be refused with 416: the answer depends on the alignment, it is 400 (for an image
truncated at the server) when the end is inside a block, and otherwise 206 with a malformed
Content-Range header. -/
theorem C11_counterexample_empty_range :
    emptyUnaligned.2.sent = [400] ∧ emptyMemory.2.sent = [206] ∧
    emptyMemory.2.hdrRange = some (lit "bytes 6-5/6") := by
  decide +kernel

end Imageio.Props
