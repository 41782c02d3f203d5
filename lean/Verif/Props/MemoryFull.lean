import Verif.Spec.MemoryFull
import Verif.Model.Memory
/-!
C99: the memory backend.
-/
namespace Imageio.Props
open Imageio.MemoryFull Imageio.MemoryFull.Spec

theorem index_nat (n : Nat) (i : Nat) : index n (i : Int) = min i n := by
  unfold index
  rw [if_neg (by omega)]
  simp

theorem slice_range {b : Bytes} {p n : Nat} (h : p + n ≤ b.length) : slice b p ((p : Int) + n) = range b p n := by
  unfold slice range
  have h2 : ((p : Int) + n) = ((p + n : Nat) : Int) := by omega
  rw [h2, index_nat, index_nat, Nat.min_eq_left h, Nat.min_eq_left (by omega), List.drop_take]
  congr 1
  omega

theorem fill_full {v d : Bytes} {n : Nat} (hn : n ≤ v.length) (hd : d.length = n) : fill v (n : Int) d = some (d ++ v.drop n) := by
  unfold fill
  rw [index_nat, Nat.min_eq_left hn, if_pos hd]

theorem range_length {b : Bytes} {p n : Nat} : (range b p n).length = min n (b.length - p) := by simp [range]

/-- Reading at a position in the file, or at its end, gives the bytes of the file, as many as there are and fit in the
buffer; the rest of the buffer does not change. -/
theorem C99_read {h : Heap} {b : MemoryFull.Handle} {view : Bytes} {p : Nat} (hc : b.closed = false) (hm : b.mode.readable = true)
    (hp : b.pos = p) (hl : p ≤ (h.bufs b.buf).length) :
    MemoryFull.readinto h b view =
      (.ok (range (h.bufs b.buf) p view.length).length,
        range (h.bufs b.buf) p view.length ++ view.drop (range (h.bufs b.buf) p view.length).length,
        { b with pos := ((p + (range (h.bufs b.buf) p view.length).length : Nat) : Int) }) := by
  have hlen : min (view.length : Int) ((h.bufs b.buf).length - p) = ((min view.length ((h.bufs b.buf).length - p) : Nat) : Int) := by
    omega
  unfold MemoryFull.readinto
  rw [if_neg (by simp [hc]), if_neg (by simp [hm])]
  simp only [hp, hlen]
  rw [slice_range (by omega)]
  have hr : range (h.bufs b.buf) p (min view.length ((h.bufs b.buf).length - p)) = range (h.bufs b.buf) p view.length := by
    unfold range
    rw [← List.take_take, List.take_of_length_le (i := (h.bufs b.buf).length - p) (by simp)]
  rw [hr, fill_full (by omega) (by rw [range_length]), range_length]
  simp

example : MemoryFull.readinto ⟨fun _ => [1, 2, 3, 4], 1⟩ ⟨.r, 0, 2, false, false⟩ [9, 9, 9] =
    (.ok 2, [3, 4, 9], ⟨.r, 0, 4, false, false⟩) := rfl

theorem assign_written {f d : Bytes} {p : Nat} (hd : d ≠ [] ∨ p ≤ f.length) :
    Written f p d (assign (if 0 < (p : Int) + d.length - f.length then f ++ zeros ((p : Int) + d.length - f.length).toNat else f)
      p ((p : Int) + d.length) d) := by
  have hg : (if 0 < (p : Int) + d.length - f.length then f ++ zeros ((p : Int) + d.length - f.length).toNat else f) =
      f ++ zeros (p + d.length - f.length) := by
    have : ((p : Int) + d.length - f.length).toNat = p + d.length - f.length := by omega
    rw [this]
    split
    · rfl
    · have : p + d.length - f.length = 0 := by omega
      rw [this]
      simp [zeros]
  rw [hg]
  have hlen : (f ++ zeros (p + d.length - f.length)).length = max f.length (p + d.length) := by
    simp [zeros]
    omega
  unfold assign
  have h2 : ((p : Int) + d.length) = ((p + d.length : Nat) : Int) := by omega
  rw [h2, index_nat, index_nat, hlen, Nat.min_eq_left (by omega), Nat.min_eq_left (by omega), Nat.max_eq_right (by omega)]
  constructor
  · intro h0
    subst h0
    have hp : p ≤ f.length := hd.resolve_left (by simp)
    have : p + ([] : Bytes).length - f.length = 0 := by simp; omega
    rw [this]
    simp [zeros]
  · intro hne k
    have hz : ∀ k, (f ++ zeros (p + d.length - f.length))[k]? = if k < f.length then f[k]? else
        if k < p + d.length then some 0 else none := by
      intro k
      by_cases hk : k < f.length
      · rw [List.getElem?_append_left hk, if_pos hk]
      · rw [List.getElem?_append_right (by omega), if_neg hk, zeros, List.getElem?_replicate]
        by_cases h3 : k < p + d.length
        · rw [if_pos h3, if_pos (by omega)]
        · rw [if_neg h3, if_neg (by omega)]
    have htake : ((f ++ zeros (p + d.length - f.length)).take p).length = p := by
      rw [List.length_take, hlen]
      omega
    by_cases h1 : k < p
    · rw [if_pos h1, List.append_assoc, List.getElem?_append_left (by omega), List.getElem?_take, if_pos h1, hz,
        if_pos (show k < p + d.length by omega)]
    · rw [if_neg h1]
      by_cases h3 : k < p + d.length
      · rw [if_pos h3, List.getElem?_append_left (by rw [List.length_append]; omega), List.getElem?_append_right (by omega), htake]
      · rw [if_neg h3, List.getElem?_append_right (by rw [List.length_append]; omega), List.getElem?_drop, List.length_append, htake, hz]
        have hk : p + d.length + (k - (p + d.length)) = k := by omega
        rw [hk]
        by_cases hf : k < f.length
        · rw [if_pos hf]
        · rw [if_neg hf, if_neg h3, List.getElem?_eq_none (by omega)]

/-- Partial: writing at a position that is not negative changes the file like `pwrite(2)`, and moves the position; other
files do not change.  Missing: writing nothing after the end of the file, and negative positions, see the
counterexamples. -/
theorem C99_write_partial {h : Heap} {b : MemoryFull.Handle} {d : Bytes} {p : Nat} (hc : b.closed = false)
    (hm : b.mode.writable = true) (hp : b.pos = p) (hd : d ≠ [] ∨ p ≤ (h.bufs b.buf).length) :
    ∃ h', MemoryFull.write h b d = (.ok d.length, { b with pos := ((p + d.length : Nat) : Int), dirty := true }, h') ∧
      Written (h.bufs b.buf) p d (h'.bufs b.buf) ∧ (∀ k, k ≠ b.buf → h'.bufs k = h.bufs k) ∧ h'.next = h.next := by
  unfold MemoryFull.write
  rw [if_neg (by simp [hc]), if_neg (by simp [hm])]
  simp only [hp]
  have e : ((p : Int) + d.length) = ((p + d.length : Nat) : Int) := by omega
  refine ⟨h.put b.buf (assign (if 0 < (p : Int) + d.length - (h.bufs b.buf).length then
    h.bufs b.buf ++ zeros ((p : Int) + d.length - (h.bufs b.buf).length).toNat else h.bufs b.buf) p ((p : Int) + d.length) d),
    by rw [e], ?_, ?_, rfl⟩
  · simp only [Heap.put, if_true]
    exact assign_written hd
  · intro k hk
    simp [Heap.put, hk]

/-- A write that leaves a gap. -/
example : (MemoryFull.write ⟨fun _ => [1], 1⟩ ⟨.rw, 0, 3, false, false⟩ [7]).2.2.bufs 0 = [1, 0, 0, 7] := rfl

/-- Zeroing is writing zeroes. -/
theorem C99_zero {h : Heap} {b : MemoryFull.Handle} {n p : Nat} (hc : b.closed = false) (hm : b.mode.writable = true)
    (hp : b.pos = p) (hd : n ≠ 0 ∨ p ≤ (h.bufs b.buf).length) :
    ∃ h', MemoryFull.zero h b n = (.ok n, { b with pos := ((p + n : Nat) : Int), dirty := true }, h') ∧
      Written (h.bufs b.buf) p (List.replicate n 0) (h'.bufs b.buf) ∧ ∀ k, k ≠ b.buf → h'.bufs k = h.bufs k := by
  have hd' : zeros n ≠ [] ∨ p ≤ (h.bufs b.buf).length := hd.imp (by intro hn h0; simp [zeros] at h0; exact hn h0) id
  obtain ⟨h', h1, h2, h3, -⟩ := C99_write_partial hc hm hp hd'
  refine ⟨h', ?_, h2, h3⟩
  unfold MemoryFull.zero
  rw [if_neg (by simp [hc]), if_neg (by simp [hm]), h1]
  simp [zeros]

/-- A closed backend refuses everything and changes nothing. -/
theorem C99_closed {h : Heap} {b : MemoryFull.Handle} (hc : b.closed = true) (view d : Bytes) (n : Nat) (i : Int) (how : Whence) :
    MemoryFull.readinto h b view = (.error MemoryFull.closedError, view, b) ∧
    MemoryFull.write h b d = (.error MemoryFull.closedError, b, h) ∧
    MemoryFull.zero h b n = (.error MemoryFull.closedError, b, h) ∧
    MemoryFull.seek h b i how = (.error MemoryFull.closedError, b) ∧
    MemoryFull.flush b = (.error MemoryFull.closedError, b) := by
  simp [MemoryFull.readinto, MemoryFull.write, MemoryFull.zero, MemoryFull.seek, MemoryFull.flush, hc]

/-- A backend that cannot write does not change any file, and one that cannot read does not read. -/
theorem C99_mode {h : Heap} {b : MemoryFull.Handle} (view d : Bytes) (n : Nat) :
    (b.mode = .r → (MemoryFull.write h b d).2 = (b, h) ∧ (MemoryFull.write h b d).1.isOk = false ∧
      (MemoryFull.zero h b n).2 = (b, h) ∧ (MemoryFull.zero h b n).1.isOk = false) ∧
    (b.mode = .w → (MemoryFull.readinto h b view).2 = (view, b) ∧ (MemoryFull.readinto h b view).1.isOk = false) := by
  constructor
  · intro hm
    cases hc : b.closed <;>
      simp [MemoryFull.write, MemoryFull.zero, hc, hm, MemoryFull.Mode.writable, Except.isOk, Except.toBool]
  · intro hm
    cases hc : b.closed <;> simp [MemoryFull.readinto, hc, hm, MemoryFull.Mode.readable, Except.isOk, Except.toBool]

/-- Seeking gives and sets the position: from the start, from the position and from the end (moving by `n` after `m` is moving
by `m + n`, and the end is the size); another `how` moves nothing.  Nothing else changes. -/
theorem C99_seek {h : Heap} {b : MemoryFull.Handle} (hc : b.closed = false) (m n : Int) :
    MemoryFull.seek h b m .set = (.ok m, { b with pos := m }) ∧
    MemoryFull.seek h (MemoryFull.seek h b m .set).2 n .cur = MemoryFull.seek h b (m + n) .set ∧
    MemoryFull.seek h b 0 .cur = (.ok b.pos, b) ∧
    MemoryFull.seek h b n .fin = MemoryFull.seek h b ((h.bufs b.buf).length + n) .set ∧
    MemoryFull.seek h b n .other = (.ok b.pos, b) := by
  obtain ⟨mode, buf, pos, dirty, closed⟩ := b
  cases hc
  simp [MemoryFull.seek]

example : MemoryFull.seek ⟨fun _ => [1, 2, 3, 4], 1⟩ ⟨.r, 0, 2, false, false⟩ (-1) .fin = (.ok 3, ⟨.r, 0, 3, false, false⟩) := rfl

/-- Closing changes only that the backend is closed; it does not flush, and closing again changes nothing. -/
theorem C99_close (b : MemoryFull.Handle) :
    (MemoryFull.close b).closed = true ∧ { MemoryFull.close b with closed := b.closed } = b ∧
    MemoryFull.close (MemoryFull.close b) = MemoryFull.close b := ⟨rfl, rfl, rfl⟩

/-- The dirty flag: set by a write that succeeded, cleared by flush, and not changed by reading and seeking. -/
theorem C99_dirty {h : Heap} {b : MemoryFull.Handle} (view d : Bytes) (i : Int) (how : Whence) :
    ((MemoryFull.write h b d).2.1.dirty = (b.dirty || (MemoryFull.write h b d).1.isOk)) ∧
    ((MemoryFull.flush b).2.dirty = (b.dirty && !(MemoryFull.flush b).1.isOk)) ∧
    (MemoryFull.readinto h b view).2.2.dirty = b.dirty ∧ (MemoryFull.seek h b i how).2.dirty = b.dirty := by
  refine ⟨?_, ?_, ?_, ?_⟩
  · unfold MemoryFull.write
    split
    · simp [Except.isOk, Except.toBool]
    · split <;> simp [Except.isOk, Except.toBool]
  · unfold MemoryFull.flush
    split <;> simp [Except.isOk, Except.toBool]
  · unfold MemoryFull.readinto
    split
    · rfl
    · split
      · rfl
      · simp only
        split <;> rfl
  · unfold MemoryFull.seek
    split <;> rfl

/-- Partial: the clone of a backend with data has the same file: what one of them writes is what the other reads.  Missing:
backends without data, see the counterexample. -/
theorem C99_clone_partial {h : Heap} {b : MemoryFull.Handle} (hd : h.bufs b.buf ≠ []) :
    MemoryFull.clone h b = (⟨b.mode, b.buf, 0, false, false⟩, h) := by
  simp [MemoryFull.clone, MemoryFull.create, hd]

/-- The clone of an empty backend has another file: nothing that is written to the clone is in the original. -/
theorem C99_counterexample_clone {h : Heap} {b : MemoryFull.Handle} (d : Bytes) (hd : h.bufs b.buf = []) (hn : b.buf < h.next) :
    (MemoryFull.clone h b).1.buf ≠ b.buf ∧
    (MemoryFull.write (MemoryFull.clone h b).2 (MemoryFull.clone h b).1 d).2.2.bufs b.buf = [] := by
  have hne : h.next ≠ b.buf := by omega
  have hc : MemoryFull.clone h b = (⟨b.mode, h.next, 0, false, false⟩, { h.put h.next [] with next := h.next + 1 }) := by
    simp [MemoryFull.clone, MemoryFull.create, hd]
  have hold : (h.put h.next []).bufs b.buf = [] := by simp [Heap.put, hne.symm, hd]
  rw [hc]
  refine ⟨hne, ?_⟩
  unfold MemoryFull.write
  split
  · exact hold
  · split
    · exact hold
    · simp only [Heap.put, if_neg hne.symm]
      exact hd

/-- Writing nothing after the end of a file makes it longer. -/
theorem C99_counterexample_empty_write {h : Heap} {b : MemoryFull.Handle} {p : Nat} (hc : b.closed = false)
    (hm : b.mode.writable = true) (hp : b.pos = p) (hl : (h.bufs b.buf).length < p) :
    ((MemoryFull.write h b []).2.2.bufs b.buf).length = p ∧
      ¬ Written (h.bufs b.buf) p [] ((MemoryFull.write h b []).2.2.bufs b.buf) := by
  have hlen : ((MemoryFull.write h b []).2.2.bufs b.buf).length = p := by
    unfold MemoryFull.write
    rw [if_neg (by simp [hc]), if_neg (by simp [hm])]
    simp only [Heap.put, if_true, hp, List.length_nil]
    rw [if_pos (by omega)]
    unfold assign
    have e : ((p : Int) + (0 : Nat)) = ((p : Nat) : Int) := by simp
    have h2 : (((p : Nat) : Int) - ((h.bufs b.buf).length : Int)).toNat = p - (h.bufs b.buf).length := by omega
    rw [e, h2, index_nat]
    simp [zeros]
    omega
  refine ⟨hlen, fun hw => ?_⟩
  rw [hw.1 rfl] at hlen
  omega

/-- A negative position: the bytes are inserted before the end, and the file becomes longer. -/
theorem C99_counterexample_negative :
    (MemoryFull.write ⟨fun _ => [1, 2, 3, 4], 1⟩ ⟨.rw, 0, -1, false, false⟩ [7]).2.2.bufs 0 = [1, 2, 3, 7, 4] := by decide

/-- Reading after the end of the file returns a negative number of bytes, if the buffer is not longer than the distance, and
moves the position back to the end. -/
theorem C99_counterexample_read_after_end {h : Heap} {b : MemoryFull.Handle} {view : Bytes} {p : Nat} (hc : b.closed = false)
    (hm : b.mode.readable = true) (hp : b.pos = p) (hl : (h.bufs b.buf).length + view.length ≤ p)
    (hlt : (h.bufs b.buf).length < p) :
    MemoryFull.readinto h b view = (.ok ((h.bufs b.buf).length - p), view, { b with pos := (h.bufs b.buf).length }) := by
  have hlen : min (view.length : Int) ((h.bufs b.buf).length - p) = (h.bufs b.buf).length - p := by
    omega
  unfold MemoryFull.readinto
  rw [if_neg (by simp [hc]), if_neg (by simp [hm])]
  simp only [hp, hlen]
  have e : (p : Int) + ((h.bufs b.buf).length - p) = ((h.bufs b.buf).length : Nat) := by omega
  have hs : slice (h.bufs b.buf) p ((p : Int) + ((h.bufs b.buf).length - p)) = [] := by
    unfold slice
    rw [e, index_nat, index_nat]
    simp
    omega
  have hi : index view.length (((h.bufs b.buf).length : Int) - p) = 0 := by
    unfold index
    rw [if_pos (by omega)]
    omega
  rw [hs]
  unfold fill
  rw [hi, e]
  simp

/-- The mode in the model of the handlers. -/
def modeOf : MemoryFull.Mode → Memory.Mode
  | .r => .r
  | .w => .w
  | .rw => .rw

/-- A backend as the handlers see it. -/
def handlerState (h : Heap) (b : MemoryFull.Handle) : Memory.State := ⟨modeOf b.mode, h.bufs b.buf, b.pos.toNat, b.closed⟩

theorem modeOf_readable (m : MemoryFull.Mode) : (modeOf m).readable = m.readable := by cases m <;> rfl
theorem modeOf_writable (m : MemoryFull.Mode) : (modeOf m).writable = m.writable := by cases m <;> rfl

theorem assign_writeAt {f d : Bytes} {p : Nat} :
    assign (if 0 < (p : Int) + d.length - f.length then f ++ zeros ((p : Int) + d.length - f.length).toNat else f)
      p ((p : Int) + d.length) d = Memory.writeAt f p d := by
  have hg : (if 0 < (p : Int) + d.length - f.length then f ++ zeros ((p : Int) + d.length - f.length).toNat else f) =
      f ++ zeros (p + d.length - f.length) := by
    have : ((p : Int) + d.length - f.length).toNat = p + d.length - f.length := by omega
    rw [this]
    split
    · rfl
    · have : p + d.length - f.length = 0 := by omega
      rw [this]
      simp [zeros]
  rw [hg]
  have hlen : (f ++ zeros (p + d.length - f.length)).length = max f.length (p + d.length) := by
    simp [zeros]
    omega
  unfold assign Memory.writeAt
  have h2 : ((p : Int) + d.length) = ((p + d.length : Nat) : Int) := by omega
  rw [h2, index_nat, index_nat, hlen, Nat.min_eq_left (by omega), Nat.min_eq_left (by omega), Nat.max_eq_right (by omega)]

/-- The backend does exactly what the properties of the handlers assume about it (C08 to C15), for positions that are not
negative: writing, zeroing, seeking and flushing always, and reading inside the image and at its end. -/
theorem C99_handlers {h : Heap} {b : MemoryFull.Handle} {p : Nat} (hp : b.pos = p) (d view : Bytes) (n addr : Nat) :
    (Memory.write (handlerState h b) addr d =
      ((MemoryFull.write h b d).1, handlerState (MemoryFull.write h b d).2.2 (MemoryFull.write h b d).2.1)) ∧
    (Memory.zero (handlerState h b) n =
      ((MemoryFull.zero h b n).1, handlerState (MemoryFull.zero h b n).2.2 (MemoryFull.zero h b n).2.1)) ∧
    (Memory.seek (handlerState h b) n =
      ((MemoryFull.seek h b n .set).1.map fun _ => (), handlerState h (MemoryFull.seek h b n .set).2)) ∧
    (Memory.flush (handlerState h b) = ((MemoryFull.flush b).1, handlerState h (MemoryFull.flush b).2)) ∧
    (p ≤ (h.bufs b.buf).length → Memory.readinto (handlerState h b) view.length =
      ((MemoryFull.readinto h b view).1.map fun k => (MemoryFull.readinto h b view).2.1.take k.toNat,
        handlerState h (MemoryFull.readinto h b view).2.2)) := by
  have hw : ∀ d, Memory.write (handlerState h b) addr d =
      ((MemoryFull.write h b d).1, handlerState (MemoryFull.write h b d).2.2 (MemoryFull.write h b d).2.1) := by
    intro d
    unfold Memory.write MemoryFull.write handlerState
    dsimp only
    rw [modeOf_writable]
    by_cases hc : b.closed = true
    · simp [hc, Memory.closedError, MemoryFull.closedError]
    by_cases hm : b.mode.writable = true
    · have e : ((p : Int) + d.length).toNat = p + d.length := by omega
      simp only [hc, hm, Bool.not_true, Bool.false_eq_true, if_false, hp, Heap.put, if_true, Int.toNat_natCast, e]
      rw [assign_writeAt]
    · simp [hc, hm]
  refine ⟨hw d, ?_, ?_, ?_, fun hl => ?_⟩
  · unfold Memory.zero MemoryFull.zero
    have e : (handlerState h b).closed = b.closed := rfl
    have e2 : (handlerState h b).mode.writable = b.mode.writable := modeOf_writable _
    rw [e, e2]
    by_cases hc : b.closed = true
    · simp [hc, Memory.closedError, MemoryFull.closedError]
    by_cases hm : b.mode.writable = true
    · simp only [hc, hm, Bool.not_true, Bool.false_eq_true, if_false]
      exact hw (zeros n)
    · simp [hc, hm]
  · unfold Memory.seek MemoryFull.seek handlerState
    cases hc : b.closed <;> simp [Memory.closedError, MemoryFull.closedError, Except.map, hc]
  · unfold Memory.flush MemoryFull.flush handlerState
    cases hc : b.closed <;> simp [Memory.closedError, MemoryFull.closedError, hc]
  · unfold Memory.readinto
    have e : (handlerState h b).closed = b.closed := rfl
    have e2 : (handlerState h b).mode.readable = b.mode.readable := modeOf_readable _
    have e3 : (handlerState h b).pos = p := by simp [handlerState, hp]
    have e4 : (handlerState h b).buf = h.bufs b.buf := rfl
    rw [e, e2, e3, e4]
    by_cases hc : b.closed = true
    · simp [hc, MemoryFull.readinto, Memory.closedError, MemoryFull.closedError, Except.map]
    by_cases hm : b.mode.readable = true
    · rw [C99_read (by simpa using hc) hm hp hl]
      simp only [hc, hm, Bool.not_true, Bool.false_eq_true, if_false, if_neg (Nat.not_lt.2 hl), Except.map]
      refine Prod.ext ?_ ?_
      · simp only [Int.toNat_natCast, List.take_left']
        rw [← List.take_take, List.take_of_length_le (i := (h.bufs b.buf).length - p) (by simp)]
        simp [range]
      · simp [handlerState, range_length]
        omega
    · simp [hc, hm, MemoryFull.readinto, Except.map]

example : Memory.write (handlerState ⟨fun _ => [1, 2], 1⟩ ⟨.rw, 0, 3, false, false⟩) 0 [7] = (.ok 1, ⟨.rw, [1, 2, 0, 7], 4, false⟩) := rfl

theorem written_length {f d g : Bytes} {p : Nat} (h : Written f p d g) (hd : d ≠ []) {k : Nat} (hk : k < p + d.length) : k < g.length := by
  have hg := h.2 hd k
  by_cases h1 : k < p
  · rw [if_pos h1] at hg
    split at hg
    · rename_i hf
      rw [List.getElem?_eq_getElem hf] at hg
      exact (List.getElem?_eq_some_iff.1 hg).1
    · exact (List.getElem?_eq_some_iff.1 hg).1
  · rw [if_neg h1, if_pos hk, List.getElem?_eq_getElem (l := d) (by omega)] at hg
    exact (List.getElem?_eq_some_iff.1 hg).1

/-- Two writes one after the other are one write. -/
theorem written_trans {f a b g g' : Bytes} {p : Nat} (h1 : Written f p a g) (h2 : Written g (p + a.length) b g') :
    Written f p (a ++ b) g' := by
  by_cases ha : a = []
  · subst ha
    rw [h1.1 rfl] at h2
    simpa using h2
  by_cases hb : b = []
  · subst hb
    rw [h2.1 rfl, List.append_nil]
    exact h1
  refine ⟨fun h => absurd (List.append_eq_nil_iff.1 h).1 ha, fun _ k => ?_⟩
  have hg' := h2.2 hb k
  rw [hg']
  by_cases hk : k < p + a.length
  · rw [if_pos hk, if_pos (written_length h1 ha hk), h1.2 ha k]
    by_cases hp : k < p
    · simp [hp]
    · rw [if_neg hp, if_pos hk, if_neg hp, if_pos (by rw [List.length_append]; omega), List.getElem?_append_left (by omega)]
  · rw [if_neg hk, if_neg (show ¬ k < p by omega), List.length_append]
    by_cases hk2 : k < p + a.length + b.length
    · rw [if_pos hk2, if_pos (by omega), List.getElem?_append_right (by omega)]
      congr 1
      omega
    · rw [if_neg hk2, if_neg (by omega), h1.2 ha k, if_neg (by omega), if_neg hk]

theorem range_split {f : Bytes} {p n m : Nat} (h : n ≤ m) : range f p m = range f p n ++ range f (p + n) (m - n) := by
  unfold range
  have : m = n + (m - n) := by omega
  rw [this, List.take_add, List.drop_drop]
  congr 2
  omega

/-- Partial: `_copy` copies exactly the bytes that were asked for, if the source has them, with any buffer that is not empty;
the source does not change, and both positions move by this number.  Missing: a source that is too short, see the
counterexample. -/
theorem C99_copy_partial : ∀ (fuel : Nat) {h : Heap} {r w : MemoryFull.Handle} {p q todo : Nat} {view : Bytes},
    r.closed = false → r.mode.readable = true → w.closed = false → w.mode.writable = true → r.buf ≠ w.buf →
    r.pos = p → w.pos = q → p + todo ≤ (h.bufs r.buf).length → (todo ≠ 0 ∨ q ≤ (h.bufs w.buf).length) →
    0 < view.length → todo < fuel →
    ∃ r' w' h', MemoryFull.copy fuel h r w todo view = some (.ok (), r', w', h') ∧
      Written (h.bufs w.buf) q (range (h.bufs r.buf) p todo) (h'.bufs w.buf) ∧
      (∀ k, k ≠ w.buf → h'.bufs k = h.bufs k) ∧
      r'.pos = ((p + todo : Nat) : Int) ∧ w'.pos = ((q + todo : Nat) : Int)
  | 0, _, _, _, _, _, _, _, _, _, _, _, _, _, _, _, _, _, hf => absurd hf (by omega)
  | fuel + 1, h, r, w, p, q, todo, view, hrc, hrm, hwc, hwm, hne, hp, hq, hsrc, hdst, hv, hf => by
    unfold MemoryFull.copy
    by_cases ht : view.length < todo
    · rw [if_pos ht, C99_read hrc hrm hp (by omega)]
      have hl : (range (h.bufs r.buf) p view.length).length = view.length := by
        rw [range_length]
        omega
      have hdrop : range (h.bufs r.buf) p view.length ++ view.drop (range (h.bufs r.buf) p view.length).length =
          range (h.bufs r.buf) p view.length := by
        rw [hl]
        simp
      simp only [hdrop]
      have hn : range (h.bufs r.buf) p view.length ≠ [] := by
        intro h0
        rw [h0] at hl
        simp at hl
        omega
      obtain ⟨h1, e1, w1, o1, -⟩ := C99_write_partial (h := h) (d := range (h.bufs r.buf) p view.length) hwc hwm hq (.inl hn)
      rw [e1]
      simp only [hl]
      have hr1 : h1.bufs r.buf = h.bufs r.buf := o1 _ hne
      obtain ⟨r', w', h', c1, c2, c3, c4, c5⟩ := C99_copy_partial fuel (h := h1)
        (r := { r with pos := ((p + view.length : Nat) : Int) })
        (w := { w with pos := ((q + view.length : Nat) : Int), dirty := true })
        (p := p + view.length) (q := q + view.length) (todo := todo - view.length)
        (view := range (h.bufs r.buf) p view.length) hrc hrm hwc hwm hne rfl rfl
        (by simp only [hr1]; omega) (.inl (by omega)) (by rw [hl]; exact hv) (by omega)
      refine ⟨r', w', h', c1, ?_, ?_, ?_, ?_⟩
      · rw [range_split (n := view.length) (by omega)]
        simp only [hr1] at c2
        refine written_trans w1 ?_
        rw [hl]
        exact c2
      · intro k hk
        rw [c3 k hk, o1 k hk]
      · rw [c4]
        congr 1
        omega
      · rw [c5]
        congr 1
        omega
    · rw [if_neg ht, C99_read hrc hrm hp (by omega)]
      have hvl : (view.take todo).length = todo := by
        rw [List.length_take]
        omega
      rw [hvl]
      have hl : (range (h.bufs r.buf) p todo).length = todo := by
        rw [range_length]
        omega
      have hdrop : range (h.bufs r.buf) p todo ++ (view.take todo).drop (range (h.bufs r.buf) p todo).length =
          range (h.bufs r.buf) p todo := by
        rw [hl]
        simp
      simp only [hdrop]
      obtain ⟨h1, e1, w1, o1, -⟩ := C99_write_partial (h := h) (d := range (h.bufs r.buf) p todo) hwc hwm hq
        (hdst.imp (fun h0 hr => by rw [hr] at hl; simp at hl; exact h0 hl.symm) id)
      rw [e1]
      refine ⟨_, _, h1, rfl, w1, o1, ?_, ?_⟩
      · rw [hl]
      · rw [hl]

/-- Five bytes with a buffer of two bytes. -/
example : ∃ r w h, MemoryFull.copy 6 ⟨fun k => if k = 0 then [1, 2, 3, 4, 5, 6] else [], 2⟩ ⟨.r, 0, 1, false, false⟩
    ⟨.rw, 1, 0, false, false⟩ 5 [9, 9] = some (.ok (), r, w, h) ∧ h.bufs 1 = [2, 3, 4, 5, 6] := ⟨_, _, _, rfl, rfl⟩

/-- A source that is too short: old bytes of the buffer are written, without an error. -/
theorem C99_counterexample_copy : ∃ r w h, MemoryFull.copy 6 ⟨fun k => if k = 0 then [1, 2, 3] else [], 2⟩ ⟨.r, 0, 0, false, false⟩
    ⟨.rw, 1, 0, false, false⟩ 4 [9, 9] = some (.ok (), r, w, h) ∧ h.bufs 1 = [1, 2, 3, 2] := ⟨_, _, _, rfl, rfl⟩

/-- An empty buffer: `_copy` does not end, however many rounds it makes. -/
theorem C99_counterexample_copy_forever {r w : MemoryFull.Handle} (hrc : r.closed = false) (hrm : r.mode.readable = true)
    (hwc : w.closed = false) (hwm : w.mode.writable = true) {todo p q : Nat} (ht : 0 < todo) (hp : r.pos = p) (hq : w.pos = q) :
    ∀ (fuel : Nat) {h : Heap} {d : Bool}, p ≤ (h.bufs r.buf).length → q ≤ (h.bufs w.buf).length →
      MemoryFull.copy fuel h r { w with dirty := d } todo [] = none
  | 0, _, _, _, _ => rfl
  | fuel + 1, h, d, h1, h2 => by
    unfold MemoryFull.copy
    rw [if_pos (by simpa using ht), C99_read hrc hrm hp h1]
    obtain ⟨h', e1, w1, o1, -⟩ := C99_write_partial (h := h) (b := { w with dirty := d }) (d := []) hwc hwm hq (.inr h2)
    have hr : range (h.bufs r.buf) p 0 = [] := by simp [range]
    simp only [hr, List.length_nil, List.drop_nil, List.append_nil, e1, Nat.sub_zero, Nat.add_zero]
    have hbuf : ∀ k, h'.bufs k = h.bufs k := by
      intro k
      by_cases hk : k = w.buf
      · subst hk
        exact w1.1 rfl
      · exact o1 k hk
    have := C99_counterexample_copy_forever hrc hrm hwc hwm ht hp hq fuel (h := h') (d := true)
      (by rw [hbuf]; exact h1) (by rw [hbuf]; exact h2)
    have er : { r with pos := (p : Int) } = r := by rw [← hp]
    have ew : ({ w with pos := (q : Int), dirty := true } : MemoryFull.Handle) = { w with dirty := true } := by rw [← hq]
    simp only [er, ew]
    exact this

end Imageio.Props
