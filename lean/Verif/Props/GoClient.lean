import Verif.Lemmas.GoClient
import Verif.Props.SparseStream

/-!
C73: the Go code.
-/
namespace Imageio.Props
open HttpBackend Http Spec Spec.Go GoClient

/-! ### Size -/

/-- C73: the size of an image with contiguous extents from 0 is the end of the image. -/
theorem C73_size {σ : Type} (S : HttpBackend.Server σ) (w : World σ) {exts : List (Nat × Nat)} {size : Nat}
    (he : S.extents w.srv = .ok exts) (hn : exts ≠ []) (ht : Tiles 0 size exts)
    (hs : size < 2 ^ 64) (b : GoClient.Backend) (hb : b.size = 0) :
    GoClient.sizeOf S b w = (.ok size, ⟨size, exts⟩) := by
  unfold GoClient.sizeOf getExtents
  rw [he, if_pos hb]
  simp only
  cases hl : exts.getLast? with
  | none => exact absurd (List.getLast?_eq_none_iff.1 hl) hn
  | some x =>
    have h1 := tiles_last ht x hl
    have h2 : u64 ((x.1 : Int) + x.2) = size := by
      have := u64_nat (n := x.1 + x.2) (by omega)
      rw [Int.natCast_add] at this
      rw [this, h1]
    simp only [h2]

/-- C73 is false for an empty list of extents: `Size` panics. -/
theorem C73_counterexample_size {σ : Type} (S : HttpBackend.Server σ) (w : World σ)
    (he : S.extents w.srv = .ok []) (b : GoClient.Backend) (hb : b.size = 0) :
    (GoClient.sizeOf S b w).1 = .error .panic := by
  unfold GoClient.sizeOf getExtents
  rw [he, if_pos hb]
  rfl

/-! ### Reading -/

/-- C73: `ReadAt` keeps the contract of `io.ReaderAt`, for any offset and buffer, whatever the
network and the server do; the image does not change. -/
theorem C73_read_at {σ : Type} {S : HttpBackend.Server σ} (L : Lawful S.B) (hS : S.Proper)
    (b : GoClient.Backend) (len off : Nat) (w : World σ) (hi : L.Inv w.srv) {size : Nat}
    {b1 : GoClient.Backend} (hb : GoClient.sizeOf S b w = (.ok size, b1))
    (hin : size ≤ min S.ticketSize (S.B.size w.srv)) (hsize : size < 2 ^ 63) (hoff : off < 2 ^ 63)
    (hlen : len < 2 ^ 63) {r : ReadResult} {b' : GoClient.Backend} {w' : World σ}
    (h : readAt S b len off w = (r, b', w')) :
    ReaderAt (L.content w.srv) size off len r.n r.err.isSome (r.err == some .eof) r.data ∧
    r.err ≠ some .panic ∧
    L.content w'.srv = L.content w.srv ∧ L.Inv w'.srv ∧ S.B.size w'.srv = S.B.size w.srv ∧
    b'.size = size := by
  have hc := sizeOf_cached hb
  by_cases ho : off ≤ size
  · rw [readAt_inside b len off w hb hoff hlen hsize ho] at h
    cases hg : getRange S off ((min len (size - off) : Nat) : Int) w with
    | mk g w1 =>
    obtain ⟨f1, f2⟩ := getRange_frame L hS _ _ w hi hg
    rw [hg] at h
    cases g with
    | error e =>
      have := f2 e rfl
      subst this
      cases h
      exact ⟨⟨by simp, fun _ => rfl, by simp [load], by simp, by simp⟩, by simp, f1.content, f1.inv,
        f1.bsize, hc⟩
    | ok body =>
      by_cases h0 : min len (size - off) = 0
      · rw [h0] at hg
        have := getRange_empty (S := S) off w hoff
        rw [show ((0 : Nat) : Int) = 0 from rfl] at hg
        rw [hg] at this
        cases this
      · obtain ⟨g1, -⟩ := getRange_spec L hS off _ (by omega) w hi (by omega) (by omega) hg
        have hp := g1 body rfl
        simp only at h
        unfold readFull at h
        by_cases hf : body.length < min len (size - off)
        · rw [if_pos hf] at h
          cases h
          exact ⟨⟨by simp, fun _ => rfl, by simp [load], by simp, by simp⟩, by simp, f1.content,
            f1.inv, f1.bsize, hc⟩
        · rw [if_neg hf] at h
          have hbody : body = load (L.content w.srv) off (min len (size - off)) := by
            apply hp.eq_of_length_le
            rw [load_length]; omega
          cases h
          refine ⟨⟨by simp only; omega, ?_, ?_, ?_, ?_⟩, ?_, f1.content, f1.inv, f1.bsize, hc⟩
          · intro hl
            simp only at hl ⊢
            rw [if_pos (by omega)]
            rfl
          · simp only [List.take_take, Nat.min_self]
            rw [hbody, List.take_of_length_le (Nat.le_of_eq (load_length _ _ _))]
          · intro _
            simp only; omega
          · simp only
            split
            · intro _; omega
            · simp
          · simp only
            split <;> simp
  · unfold readAt at h
    rw [hb] at h
    simp only at h
    rw [u64_nat (by omega : off < 2 ^ 64), if_pos (by omega)] at h
    cases h
    exact ⟨⟨by simp, fun _ => rfl, by simp [load], by simp, fun _ => by simp only; omega⟩, by simp,
      rfl, hi, rfl, hc⟩

/-- C73: a read of at least one byte inside the image returns all the bytes up to the end of the
image when nothing fails; the error is `io.EOF` exactly when the buffer ends after the image. -/
theorem C73_read_at_succeeds {σ : Type} {S : HttpBackend.Server σ} (L : Lawful S.B) (hS : S.Proper)
    (b : GoClient.Backend) (len off : Nat) (w : World σ) (hi : L.Inv w.srv) {size : Nat}
    {b1 : GoClient.Backend} (hb : GoClient.sizeOf S b w = (.ok size, b1))
    (hin : size ≤ min S.ticketSize (S.B.size w.srv)) (hsize : size < 2 ^ 63) (hoff : off < size)
    (hlen : 0 < len) (hmax : len < 2 ^ 63) (hnet : w.net.Good)
    (hfail : ¬ L.MayFail off (min len (size - off))) :
    (readAt S b len off w).1 = ⟨min len (size - off), if size < off + len then some .eof else none,
      load (L.content w.srv) off (min len (size - off))⟩ := by
  rw [readAt_inside b len off w hb (by omega) hmax hsize (by omega)]
  cases hg : getRange S off ((min len (size - off) : Nat) : Int) w with
  | mk g w1 =>
  obtain ⟨-, -, -, -, -, g6⟩ := getRange_spec L hS off _ (by omega) w hi (by omega) (by omega) hg
  rw [g6 hnet hfail]
  simp only [readFull]
  rw [if_neg (by rw [load_length]; omega)]
  simp only
  rw [List.take_of_length_le (Nat.le_of_eq (load_length _ _ _))]

/-- C73: reading after the end of the image is the end of the file.
Partial: it is not at the end of the image, see `C73_counterexample_end`. -/
theorem C73_end_partial {σ : Type} {S : HttpBackend.Server σ} (b : GoClient.Backend) (len off : Nat)
    (w : World σ) {size : Nat} {b1 : GoClient.Backend} (hb : GoClient.sizeOf S b w = (.ok size, b1))
    (hoff : size < off) (hmax : off < 2 ^ 63) :
    readAt S b len off w = (⟨0, some .eof, []⟩, b1, w) := by
  unfold readAt
  rw [hb]
  simp only
  rw [u64_nat (by omega : off < 2 ^ 64), if_pos (by omega)]

/-- C73 is false at the end of the image: for every server, network and buffer the error is not
`io.EOF`, so that a reader that reads until the end fails. -/
theorem C73_counterexample_end {σ : Type} {S : HttpBackend.Server σ} (b : GoClient.Backend) (len : Nat)
    (w : World σ) {size : Nat} {b1 : GoClient.Backend} (hb : GoClient.sizeOf S b w = (.ok size, b1))
    (hsize : size < 2 ^ 63) (hlen : len < 2 ^ 63) :
    (readAt S b len size w).1 = ⟨0, some .other, []⟩ := by
  rw [readAt_inside b len size w hb hsize hlen hsize (Nat.le_refl _)]
  have := getRange_empty (S := S) size w hsize
  rw [show min len (size - size) = 0 by omega]
  cases hg : getRange S size ((0 : Nat) : Int) w with
  | mk g w1 =>
  rw [show ((0 : Nat) : Int) = 0 from rfl] at hg
  rw [hg] at this
  cases this
  rfl

/-- C73 is false for an empty buffer: reading no bytes fails everywhere in the image. -/
theorem C73_counterexample_empty {σ : Type} {S : HttpBackend.Server σ} (b : GoClient.Backend) (off : Nat)
    (w : World σ) {size : Nat} {b1 : GoClient.Backend} (hb : GoClient.sizeOf S b w = (.ok size, b1))
    (hsize : size < 2 ^ 63) (hoff : off ≤ size) :
    (readAt S b 0 off w).1 = ⟨0, some .other, []⟩ := by
  rw [readAt_inside b 0 off w hb (by omega) (by decide) hsize hoff]
  have := getRange_empty (S := S) off w (by omega)
  rw [show min 0 (size - off) = 0 by omega]
  cases hg : getRange S off ((0 : Nat) : Int) w with
  | mk g w1 =>
  rw [show ((0 : Nat) : Int) = 0 from rfl] at hg
  rw [hg] at this
  cases this
  rfl

/-- C73 is false for negative offsets: they are the end of the file, not an error. -/
theorem C73_counterexample_negative {σ : Type} {S : HttpBackend.Server σ} (b : GoClient.Backend) (len : Nat)
    (off : Int) (w : World σ) {size : Nat} {b1 : GoClient.Backend}
    (hb : GoClient.sizeOf S b w = (.ok size, b1)) (hsize : size < 2 ^ 63) (hneg : off < 0)
    (hmin : -2 ^ 63 ≤ off) :
    (readAt S b len off w).1 = ⟨0, some .eof, []⟩ := by
  unfold readAt
  rw [hb]
  simp only
  have : 2 ^ 63 ≤ u64 off := by
    unfold u64
    omega
  rw [if_pos (by omega)]

/-! ### Extents -/

/-- C73: the extents from an NBD server: they follow each other from 0, none is empty, a byte is in
a zero extent exactly if the server says it reads as zeroes (flag 2), and neighbours differ in their
flags.  `st` are the flags of the bytes of the image. -/
theorem C73_extents {st : Nat → Nat} {size : Nat} (replies : Replies)
    (hr : ∀ f ∈ replies, Truthful st size f) {r : List Nat}
    (h : nbdExtents size replies = .done r) :
    Tiles 0 size ((values 0 r).map fun x => (x.start, x.length)) ∧
    (∀ x ∈ values 0 r, ∀ i, x.start ≤ i → i < x.start + x.length →
      (x.zero = true ↔ st i &&& 2 = 2)) ∧
    (∀ pre x y post, values 0 r = pre ++ x :: y :: post → st (y.start - 1) ≠ st y.start) := by
  have hs : Sofar st size 0 [] :=
    ⟨rfl, rfl, Nat.zero_le _, fun pre l f post h => by simp at h⟩
  obtain ⟨-, h2, -, -⟩ := extentsLoop_spec replies hr hs
  have hf := h2 r h
  obtain ⟨v1, v2, v3⟩ := values_spec st r.length r 0 rfl hf.even hf.pos (by
    intro i hi
    have := hf.flags
    simp only [this, List.getElem_map, List.getElem_range, Nat.zero_add])
  rw [hf.flags] at v1
  have hsum : ((values 0 r).map (·.length)).sum = size := by
    have := congrArg List.length v1
    simpa [List.length_flatMap, Function.comp_def] using this
  have tiles : ∀ (l : List GoClient.Extent) (start : Nat),
      (∀ pre x post, l = pre ++ x :: post →
        x.start = start + (pre.map (·.length)).sum ∧ 0 < x.length) →
      Tiles start (start + (l.map (·.length)).sum) (l.map fun x => (x.start, x.length)) := by
    intro l
    induction l with
    | nil => intro start _; exact .nil
    | cons x l ih =>
      intro start hx
      obtain ⟨a1, a2⟩ := hx [] x l rfl
      simp only [List.map_nil, List.sum_nil, Nat.add_zero] at a1
      have := ih (start + x.length) (fun pre y post hy => by
        obtain ⟨b1, b2⟩ := hx (x :: pre) y post (by rw [hy]; rfl)
        refine ⟨?_, b2⟩
        rw [b1]
        simp only [List.map_cons, List.sum_cons]
        omega)
      simp only [List.map_cons, List.sum_cons]
      rw [← Nat.add_assoc, a1]
      exact .cons a2 this
  refine ⟨?_, ?_, v3⟩
  · have := tiles (values 0 r) 0 v2
    rwa [Nat.zero_add, hsum] at this
  · intro x hx i h1 h2
    obtain ⟨pre, post, hp⟩ := List.append_of_mem hx
    obtain ⟨a1, a2⟩ := v2 pre x post hp
    rw [hp] at v1
    simp only [List.flatMap_append, List.flatMap_cons] at v1
    have hl : (pre.flatMap fun x => List.replicate x.length x.zero).length =
        (pre.map (·.length)).sum := by
      simp [List.length_flatMap]
    have hi := congrArg (fun l => l[i]?) v1
    rw [List.getElem?_append_right (by omega), List.getElem?_append_left (by
      rw [List.length_replicate]; omega), List.getElem?_replicate, if_pos (by omega)] at hi
    rw [List.getElem?_map, List.getElem?_map] at hi
    cases hg : (List.range size)[i]? with
    | none => rw [hg] at hi; cases hi
    | some j =>
      rw [hg] at hi
      obtain ⟨_, hj⟩ := List.getElem?_eq_some_iff.1 hg
      rw [List.getElem_range] at hj
      subst hj
      simp only [Option.map_some, Option.some.injEq] at hi
      rw [hi]
      simp

/-- C73: a server that keeps to the protocol never makes `Extents` panic, and with at least one
extent in every reply it ends after at most as many requests as there are bytes; it fails only if the
server does. -/
theorem C73_extents_end {st : Nat → Nat} {size : Nat} (replies : Replies)
    (hr : ∀ f ∈ replies, Truthful st size f) :
    nbdExtents size replies ≠ .panic ∧
    ((∀ f ∈ replies, ∀ off len, off < size → ∃ e, f off len = .entries e ∧ e ≠ []) →
      size ≤ replies.length → ∃ r, nbdExtents size replies = .done r) ∧
    (nbdExtents size replies = .error → ∃ f ∈ replies, ∃ off len, f off len = .error) := by
  have hs : Sofar st size 0 [] :=
    ⟨rfl, rfl, Nat.zero_le _, fun pre l f post h => by simp at h⟩
  obtain ⟨h1, -, h3, h4⟩ := extentsLoop_spec replies hr hs
  exact ⟨h1, fun a b => h3 a (by omega), h4⟩

/-- C73: requests for block status are inside the image, not empty and at most 1 GiB: what the
server does for other requests does not matter. -/
theorem C73_requests {size : Nat} (fs gs : Replies)
    (h : List.Forall₂ (fun f g => ∀ off len, 0 < len → len ≤ 2 ^ 30 → off + len ≤ size →
      f off len = g off len) fs gs) : nbdExtents size fs = nbdExtents size gs :=
  extentsLoop_congr fs gs h 0 []

/-- C73 is false for a server that sends no extents: the requests never end. -/
theorem C73_counterexample_forever (size : Nat) (h : 0 < size) :
    ∀ n, nbdExtents size (List.replicate n fun _ _ => .entries []) = .waiting := by
  intro n
  unfold nbdExtents
  induction n with
  | zero => unfold extentsLoop; rw [if_pos h]; rfl
  | succ n ih =>
    unfold extentsLoop
    rw [if_pos h, List.replicate_succ]
    exact ih

/-- C73 is false for a reply with a length but no flags: `Extents` panics. -/
theorem C73_counterexample_odd : nbdExtents 8 [fun _ _ => .entries [8]] = .panic := by
  decide

/-! ### The map command -/

/-- C73: `ovirt-img map` writes a JSON document: the list of the extents, in order, each with its
start, length and zero flag. -/
theorem C73_map (exts : List GoClient.Extent) :
    Document (writeExtents exts) (.arr (exts.map fun e =>
      .obj [("start".toList, .num e.start), ("length".toList, .num e.length),
        ("zero".toList, .bool e.zero)])) :=
  text_extents exts

/-! ### Examples -/

example : GoClient.sizeOf sparseServer ⟨0, []⟩ smallDisk = (.ok 6, ⟨6, [(0, 6)]⟩) :=
  C73_size sparseServer smallDisk rfl (by simp) (.cons (by decide) .nil) (by decide) _ rfl

/-- Reading 4 bytes at 3: the last 3 bytes and `io.EOF`. -/
theorem goRead_tail : (readAt sparseServer ⟨0, []⟩ 4 3 smallDisk).1 = ⟨3, some .eof, [0, 0, 3]⟩ := by
  decide +kernel

/-- Reading everything: no error. -/
theorem goRead_all : (readAt sparseServer ⟨0, []⟩ 6 0 smallDisk).1 =
    ⟨6, none, [1, 2, 0, 0, 0, 3]⟩ := by
  decide +kernel

example (len off : Nat) (ho : off < 2 ^ 63) (hl : len < 2 ^ 63) :
    (readAt sparseServer ⟨0, []⟩ len off smallDisk).1.n ≤ len :=
  (C73_read_at (S := sparseServer) Memory.lawful sparseServer_proper ⟨0, []⟩ len off smallDisk rfl
    (size := 6) (b1 := ⟨6, [(0, 6)]⟩) rfl (by decide) (by decide) ho hl rfl).1.at_most

example : (readAt sparseServer ⟨0, []⟩ 4 6 smallDisk).1 = ⟨0, some .other, []⟩ :=
  C73_counterexample_end (S := sparseServer) ⟨0, []⟩ 4 smallDisk (size := 6) (b1 := ⟨6, [(0, 6)]⟩)
    rfl (by decide) (by decide)

example : (readAt sparseServer ⟨0, []⟩ 4 7 smallDisk).1 = ⟨0, some .eof, []⟩ :=
  congrArg Prod.fst (C73_end_partial (S := sparseServer) ⟨0, []⟩ 4 7 smallDisk (size := 6)
    (b1 := ⟨6, [(0, 6)]⟩) rfl (by decide) (by decide))

/-- A device of 8 bytes, without faults: the bytes are read. -/
example : (readAt blockServer ⟨0, []⟩ 5 4 blockDisk).1 = ⟨4, some .eof, [9, 9, 9, 9]⟩ := by
  have hfail : ¬ (File.lawful ⟨true, 4, true⟩ (by decide) True 8 (by decide)).MayFail 4 4 := by
    rintro ⟨k, hk, hm⟩
    rcases hm with hm | hm
    · exact hm trivial
    · have h1 : k ≤ (4 + 4 + 4 - 1) / 4 * 4 := hk
      have h2 : 8 < k := hm.2
      omega
  exact C73_read_at_succeeds (S := blockServer)
    (File.lawful ⟨true, 4, true⟩ (by decide) True 8 (by decide))
    (toyServer_proper _ _ _ _ (by decide) (by decide)) ⟨0, []⟩ 5 4 blockDisk
    ⟨fun _ => rfl, fun _ => rfl⟩ (size := 8) (b1 := ⟨8, [(0, 8)]⟩) rfl
    (by decide) (by decide) (by decide) (by decide) (by decide)
    (World.net_good (by simp [blockDisk])) hfail

/-- The flags of 12 bytes: 4 of data, 4 zeroes, 4 in a hole. -/
def goFlags (i : Nat) : Nat := if i < 4 then 0 else if i < 8 then 2 else 3

/-- A server that says the truth: first a short reply, then one that ends after the image. -/
def goReplies : Replies :=
  [fun off _ => .entries (if off = 0 then [4, 0] else []), fun _ _ => .eintr,
    fun off _ => .entries (if off = 4 then [2, 2, 2, 2, 9, 3] else [])]

theorem goReplies_done : nbdExtents 12 goReplies = .done [4, 0, 2, 2, 2, 2, 4, 3] := by decide

theorem goReplies_truthful : ∀ f ∈ goReplies, Truthful goFlags 12 f := by
  intro f hf off len e ho he
  simp only [goReplies, List.mem_cons, List.not_mem_nil, or_false] at hf
  rcases hf with rfl | rfl | rfl
  · simp only [Reply.entries.injEq] at he
    by_cases h : off = 0
    · rw [if_pos h] at he
      subst he h
      exact .cons (by decide) (fun i _ h _ => by unfold goFlags; rw [if_pos (by omega)]) .nil
    · rw [if_neg h] at he
      subst he
      exact .nil
  · cases he
  · simp only [Reply.entries.injEq] at he
    by_cases h : off = 4
    · rw [if_pos h] at he
      subst he h
      refine .cons (by decide) ?_ (.cons (by decide) ?_ (.cons (by decide) ?_ .nil))
      · intro i _ _ _; unfold goFlags; rw [if_neg (by omega), if_pos (by omega)]
      · intro i _ _ _; unfold goFlags; rw [if_neg (by omega), if_pos (by omega)]
      · intro i _ _ _; unfold goFlags; rw [if_neg (by omega), if_neg (by omega)]
    · rw [if_neg h] at he
      subst he
      exact .nil

/-- The two pairs with the flags 2 are merged. -/
theorem goValues : values 0 [4, 0, 2, 2, 2, 2, 4, 3] =
    [⟨0, 4, false⟩, ⟨4, 4, true⟩, ⟨8, 4, true⟩] := by decide +kernel

example : Tiles 0 12 [(0, 4), (4, 4), (8, 4)] := by
  have := (C73_extents goReplies goReplies_truthful goReplies_done).1
  rwa [goValues] at this

example : nbdExtents 12 goReplies ≠ .panic := (C73_extents_end goReplies goReplies_truthful).1

/-- The text of the map. -/
theorem goMap : writeExtents [⟨0, 4, false⟩, ⟨4, 8, true⟩] =
    ("[{\"start\": 0, \"length\": 4, \"zero\": false},\n " ++
      "{\"start\": 4, \"length\": 8, \"zero\": true}]\n").toList := by decide +kernel

end Imageio.Props
