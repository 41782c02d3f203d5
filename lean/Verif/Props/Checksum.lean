import Verif.Lemmas.Blkhash
import Verif.Lemmas.Memory
import Verif.Lemmas.FileLaws
import Verif.Lemmas.NbdBackend
import Verif.Props.Extents
import Verif.Props.Backends
/-!
C22, C23, C24, C44: the checksum of an image.
-/
namespace Imageio.Props
open Imageio.Spec Imageio.Extents Imageio.Http Imageio.Images Imageio.Blkhash

/-! ## C24 -/

/-- Zero detection is exact, for every buffer. -/
theorem C24_is_zero (buf : Bytes) : isZero buf = true ↔ ∀ x ∈ buf, x = 0 := isZero_iff buf

/-- Buffers of 17 and 40 bytes, with a difference in the part compared by memcmp. -/
example : isZero (zeros 17) = true ∧ isZero (zeros 39 ++ [1]) = false ∧ isZero [] = true ∧
    isZero (zeros 16 ++ [1] ++ zeros 23) = false := by decide

/-! ## C23 -/

theorem blocksOf_tiles (s : Nat) (cs : List (List Bool)) (h : ∀ c ∈ cs, 0 < c.length) :
    Tiles s ((blocksOf s cs).map fun b => (b.start, b.length)) (s + cs.flatten.length) := by
  induction cs generalizing s with
  | nil => exact .nil s
  | cons c cs ih =>
    simp only [blocksOf, List.map_cons, List.flatten_cons, List.length_append]
    rw [← Nat.add_assoc]
    exact .cons (h c (by simp)) (ih _ fun c hc => h c (by simp [hc]))

theorem split_eq {es : List ZeroExtent} {n size : Nat} (hn : 0 < n)
    (h : Tiles 0 (es.map fun e => (e.start, e.length)) size) :
    split es n = blocksOf 0 (chunks n (zeroFlags es)) := (splitLoop_spec hn es 0 _ h).1

theorem flags_length {es : List ZeroExtent} {size : Nat}
    (h : Tiles 0 (es.map fun e => (e.start, e.length)) size) : (zeroFlags es).length = size := by
  have := (tiles_flags (content := fun _ => 0) h (fun _ _ _ _ _ _ => rfl)).1
  omega

/-- The blocks tile the image. -/
theorem C23_tiles {es : List ZeroExtent} {n size : Nat} (hn : 0 < n)
    (h : Tiles 0 (es.map fun e => (e.start, e.length)) size) :
    Tiles 0 ((split es n).map fun b => (b.start, b.length)) size := by
  rw [split_eq hn h]
  have := blocksOf_tiles 0 (chunks n (zeroFlags es)) fun c hc => ((chunks_length _).1 c hc).1
  rwa [chunks_flatten hn, flags_length h, Nat.zero_add] at this

theorem blocksOf_lengths (s : Nat) (cs : List (List Bool)) :
    (blocksOf s cs).map Block.length = cs.map List.length := by
  induction cs generalizing s with
  | nil => rfl
  | cons c cs ih => simp [blocksOf, ih]

/-- All the blocks have the block size, except the last one that may be shorter. -/
theorem C23_sizes {es : List ZeroExtent} {n size : Nat} (hn : 0 < n)
    (h : Tiles 0 (es.map fun e => (e.start, e.length)) size) :
    (∀ b ∈ split es n, b.length ≤ n) ∧ ∀ b ∈ (split es n).dropLast, b.length = n := by
  rw [split_eq hn h]
  obtain ⟨c1, c2⟩ := chunks_length (n := n) (zeroFlags es)
  have e := blocksOf_lengths 0 (chunks n (zeroFlags es))
  constructor
  · intro b hb
    have : b.length ∈ (chunks n (zeroFlags es)).map List.length := by
      rw [← e]; exact List.mem_map_of_mem hb
    obtain ⟨c, hc, h1⟩ := List.mem_map.1 this
    rw [← h1]
    exact (c1 c hc).2
  · intro b hb
    have : b.length ∈ ((chunks n (zeroFlags es)).map List.length).dropLast := by
      rw [← e, ← List.map_dropLast]; exact List.mem_map_of_mem hb
    rw [← List.map_dropLast] at this
    obtain ⟨c, hc, h1⟩ := List.mem_map.1 this
    rw [← h1]
    exact c2 c hc

/-- The flag of a byte is the flag of the extent it belongs to. -/
theorem flag_of_extent {es : List ZeroExtent} {s e : Nat}
    (ht : Tiles s (es.map fun z => (z.start, z.length)) e) :
    (∀ x ∈ es, ∀ k, x.start ≤ k → k < x.start + x.length →
      ∃ h : k - s < (zeroFlags es).length, s ≤ k ∧ (zeroFlags es)[k - s] = x.zero) ∧
    ∀ k, s ≤ k → k < e → ∃ x ∈ es, x.start ≤ k ∧ k < x.start + x.length := by
  induction es generalizing s with
  | nil =>
    simp only [List.map_nil] at ht
    cases ht
    exact ⟨by simp, fun k h1 h2 => by omega⟩
  | cons y es ih =>
    obtain ⟨ys, yl, yz, yh⟩ := y
    simp only [List.map_cons] at ht
    cases ht with
    | cons hlen ht =>
    obtain ⟨i1, i2⟩ := ih ht
    constructor
    · intro x hx k h1 h2
      rcases List.mem_cons.1 hx with rfl | hx
      · simp only at h1 h2
        refine ⟨by simp; omega, h1, ?_⟩
        simp only [zeroFlags_cons]
        rw [List.getElem_append_left (by simp; omega), List.getElem_replicate]
      · obtain ⟨g1, g2, g3⟩ := i1 x hx k h1 h2
        refine ⟨by simp; omega, by omega, ?_⟩
        simp only [zeroFlags_cons]
        rw [List.getElem_append_right (by simp; omega)]
        simp only [List.length_replicate]
        rw [← g3]
        congr 1
        omega
    · intro k h1 h2
      by_cases hk : k < s + yl
      · exact ⟨⟨s, yl, yz, yh⟩, by simp, h1, hk⟩
      · obtain ⟨x, hx, g⟩ := i2 k (by omega) h2
        exact ⟨x, by simp [hx], g⟩

theorem blocksOf_zero {s : Nat} {cs : List (List Bool)} {b : Block} (hb : b ∈ blocksOf s cs) :
    s ≤ b.start ∧ b.start + b.length ≤ s + cs.flatten.length ∧
    (b.zero = true ↔ ∀ k (h : k - s < cs.flatten.length), b.start ≤ k → k < b.start + b.length →
      cs.flatten[k - s] = true) := by
  induction cs generalizing s with
  | nil => simp [blocksOf] at hb
  | cons c cs ih =>
    simp only [blocksOf] at hb
    rcases List.mem_cons.1 hb with rfl | hb
    · refine ⟨Nat.le_refl _, by simp, ?_⟩
      simp only [List.flatten_cons]
      constructor
      · intro h k hk h1 h2
        rw [List.getElem_append_left (by omega)]
        have := List.all_eq_true.1 h c[k - s] (List.getElem_mem _)
        simpa using this
      · intro h
        rw [List.all_eq_true]
        intro x hx
        obtain ⟨k, hk, rfl⟩ := List.getElem_of_mem hx
        have := h (s + k) (by simp; omega) (by omega) (by omega)
        simp only [Nat.add_sub_cancel_left] at this
        rw [List.getElem_append_left (by omega)] at this
        simpa using this
    · obtain ⟨i1, i2, i3⟩ := ih hb
      refine ⟨by omega, by rw [List.flatten_cons, List.length_append]; omega, ?_⟩
      rw [i3]
      simp only [List.flatten_cons]
      have idx : ∀ k, s + c.length ≤ k → k - s - c.length = k - (s + c.length) := by omega
      constructor
      · intro h k hk h1 h2
        have hk' := hk
        rw [List.length_append] at hk'
        rw [List.getElem_append_right (by omega)]
        simp only [idx k (by omega)]
        exact h k (by omega) h1 h2
      · intro h k hk h1 h2
        have := h k (by rw [List.length_append]; omega) h1 h2
        rw [List.getElem_append_right (by omega)] at this
        simpa only [idx k (by omega)] using this

/-- A block is handled as zero exactly when all the extents that share bytes with it are zero. -/
theorem C23_zero {es : List ZeroExtent} {n size : Nat} (hn : 0 < n)
    (h : Tiles 0 (es.map fun e => (e.start, e.length)) size) (b : Block) (hb : b ∈ split es n) :
    b.zero = true ↔ ∀ e ∈ es,
      (∃ k, (e.start ≤ k ∧ k < e.start + e.length) ∧ b.start ≤ k ∧ k < b.start + b.length) →
        e.zero = true := by
  rw [split_eq hn h] at hb
  obtain ⟨-, b2, b3⟩ := blocksOf_zero hb
  rw [b3]
  rw [chunks_flatten hn, flags_length h, Nat.zero_add] at b2
  have hfl := flags_length h
  obtain ⟨f1, f2⟩ := flag_of_extent h
  simp only [chunks_flatten hn]
  constructor
  · rintro hz e he ⟨k, ⟨h1, h2⟩, h3, h4⟩
    obtain ⟨g1, -, g3⟩ := f1 e he k h1 h2
    rw [← g3]
    exact hz k g1 h3 h4
  · intro hz k hk h1 h2
    obtain ⟨e, he, h3, h4⟩ := f2 k (Nat.zero_le _) (by omega)
    obtain ⟨g1, -, g3⟩ := f1 e he k h3 h4
    rw [g3]
    exact hz e he ⟨k, ⟨h3, h4⟩, h1, h2⟩

/-- The example in the comment of `split`: data, zero, data, zero. -/
example : split [⟨0, 4, false, none⟩, ⟨4, 2, true, none⟩, ⟨6, 3, false, none⟩, ⟨9, 12, true, none⟩] 5 =
    [⟨0, 5, false⟩, ⟨5, 5, false⟩, ⟨10, 5, true⟩, ⟨15, 5, true⟩, ⟨20, 1, true⟩] := by decide +kernel

/-! ## C22 -/

/-- The checksum is the digest of the digests of the blocks of the image, for every valid
description of the image by extents. -/
theorem C22_image {σ : Type} {B : Backend σ} {L : Lawful B} {F : σ → Prop} (hf : FullReads L F)
    {func : Bytes → Bytes} {detect : Bool} {cancel : Nat → Bool} {buf : Bytes} (hn : 0 < buf.length)
    (hnb : buf.length % B.blockSize = 0) {s : σ} (hi : L.Inv s) (hF : F s) {es : List ZeroExtent}
    (hv : Valid (L.content s) (B.size s) es) (hsb : B.size s % B.blockSize = 0) {d : Bytes}
    {st : OpState σ} (hr : opRun B func detect cancel es buf s = (.ok d, st)) :
    d = blockChecksum func buf.length (load (L.content s) 0 (B.size s)) := by
  rcases (opRun_spec hf hn hnb hi hF hv hsb hr).2 with h | ⟨h, -⟩ | ⟨e, k, h, -⟩
  · simpa using h
  · simp at h
  · simp at h

/-- Two backends with the same bytes have the same checksum, whatever the backends, the extents
reported and the old content of the buffers, with and without zero detection. -/
theorem C22_content_only {σ τ : Type} {B : Backend σ} {B' : Backend τ} {L : Lawful B} {L' : Lawful B'}
    {F : σ → Prop} {F' : τ → Prop} (hf : FullReads L F) (hf' : FullReads L' F')
    {func : Bytes → Bytes} {detect detect' : Bool} {cancel cancel' : Nat → Bool} {buf buf' : Bytes}
    (hn : 0 < buf.length) (hbuf : buf'.length = buf.length) (hnb : buf.length % B.blockSize = 0)
    (hnb' : buf'.length % B'.blockSize = 0) {s : σ} {s' : τ} (hi : L.Inv s) (hi' : L'.Inv s') (hF : F s)
    (hF' : F' s') {es es' : List ZeroExtent} (hv : Valid (L.content s) (B.size s) es)
    (hv' : Valid (L'.content s') (B'.size s') es') (hsb : B.size s % B.blockSize = 0)
    (hsb' : B'.size s' % B'.blockSize = 0)
    (himage : load (L.content s) 0 (B.size s) = load (L'.content s') 0 (B'.size s')) {d d' : Bytes}
    {st : OpState σ} {st' : OpState τ} (hr : opRun B func detect cancel es buf s = (.ok d, st))
    (hr' : opRun B' func detect' cancel' es' buf' s' = (.ok d', st')) : d = d' := by
  rw [C22_image hf hn hnb hi hF hv hsb hr, C22_image hf' (by omega) hnb' hi' hF' hv' hsb' hr', hbuf,
    himage]

/-- The checksum of a plain file with any pattern of short reads. -/
theorem C22_plain_file (func : Bytes → Bytes) (short : Nat → Nat) {n : Nat} (hn : 0 < n) (detect : Bool)
    (image : Bytes) : checksum func short n detect image = .ok (blockChecksum func n image) := by
  obtain ⟨h', e1, e2⟩ := checksumLoop_spec (func := func) (short := short) hn (detect := detect)
    (fuel := image.length) (i := 0) (rest := image) (h := Hash.init func n) (Nat.le_refl _) rfl rfl
  simp only [checksum, e1, Hash.digest, e2, blockChecksum]
  rfl

/-- The extents reported by the NBD backend describe the image, when the server is honest and bytes
with the zero flag are zero. -/
theorem C22_nbd_valid {i : NbdInfo} {mb : Nat} {s : Server} {t : Truth} {zs : List ZeroExtent}
    (hh : s.Honest t i.exportSize) (hsize : 0 < i.exportSize)
    {content : Nat → Byte} (hz : ∀ k, k < i.exportSize → t.alloc k / 2 % 2 = 1 → content k = 0)
    (h : nbdZero i (wireClient mb s) = .ok zs) : Valid content i.exportSize zs := by
  have ht := C20_zero_tiles hsize h
  refine ⟨ht, ?_⟩
  intro e he hze k h1 h2
  have hlt : k < i.exportSize := by
    obtain ⟨g, -, -⟩ := (flag_of_extent ht).1 e he k h1 h2
    rw [flags_length ht] at g
    omega
  by_cases hb : i.hasBaseAllocation = true
  · have := (C21_zero_flags hh hb h e he k ⟨h1, h2⟩).1
    rw [hze] at this
    exact hz k hlt (by simpa using this.symm)
  · unfold nbdZero at h
    rw [if_pos (by simpa using hb)] at h
    simp only [Except.ok.injEq] at h
    subst h
    simp only [List.mem_singleton] at he
    subst he
    simp at hze

/-- The single extent reported by the other backends describes any image. -/
theorem C22_plain_valid (content : Nat → Byte) (size : Nat) (h : 0 < size) :
    Valid content size (plainZero size) :=
  ⟨C20_plain_tiles size h, by simp [plainZero]⟩

/-! ### The backends read everything -/

theorem memory_fullReads : FullReads Memory.lawful (fun s => s.mode.readable = true) := by
  constructor
  · intro s n r s' hi hF h
    have hc : s.closed = false := hi
    simp only [Memory.backend, Memory.seek, hc] at h
    cases h
    exact hF
  · intro s n r s' hi hF h
    have hc : s.closed = false := hi
    simp only [Memory.backend, Memory.readinto, hc, hF, Bool.false_eq_true, if_false, Bool.not_true] at h
    split at h <;> (cases h; exact hF)
  · intro s n d s' hi hF _ _ hsz h
    have hc : s.closed = false := hi
    simp only [Memory.backend, Memory.readinto, hc, hF, Bool.false_eq_true, if_false, Bool.not_true] at h hsz
    split at h
    · simp at h
    · simp only [Prod.mk.injEq, Except.ok.injEq] at h
      rw [← h.1, List.length_take, List.length_drop]
      omega

theorem nbd_fullReads (bs : Nat) (hb : 0 < bs) (strict : Prop) (cap : Nat) (h1 : strict → bs = 1) :
    FullReads (NbdBackend.lawful bs hb strict cap h1) (fun _ => True) := by
  constructor
  · intros; trivial
  · intros; trivial
  · intro s n d s' hi _ _ _ hsz h
    simp only [NbdBackend.backend, NbdBackend.readinto] at h hsz
    split at h
    · simp at h
    · split at h
      next h0 =>
        simp only [Prod.mk.injEq, Except.ok.injEq] at h
        rw [← h.1, List.length_nil]
        omega
      next h0 =>
        split at h
        · simp at h
        next s1 hq =>
          have he : s1.export_ = s.export_ := by
            unfold NbdBackend.request at hq
            split at hq
            · simp at hq
            · simp only at hq
              split at hq
              · simp at hq
              · simp only [Prod.mk.injEq, true_and] at hq
                rw [← hq]
          simp only [Prod.mk.injEq, Except.ok.injEq] at h
          rw [← h.1, he, List.length_take, List.length_drop]
          omega

/-- For files and devices: when the kernel does not return short reads inside the image. -/
theorem file_fullReads (env : File.Env) (hb : 0 < env.bs) (strict : Prop) (cap : Nat)
    (hcap : cap % env.bs = 0) :
    FullReads (File.lawful env hb strict cap hcap) (fun s => s.shortR = []) := by
  constructor
  · intro s n r s' hi hF h
    simp only [File.backend, File.seek] at h
    cases h
    exact hF
  · intro s n r s' hi hF h
    simp only [File.backend, File.readinto, File.fioReadinto, File.sys] at h
    split at h
    · split at h <;> (cases h; simp [hF])
    · split at h <;> (cases h; simp [hF])
    · cases h; simp [hF]
  · intro s n d s' hi hF _ _ hsz h
    simp only [File.backend, File.readinto, File.fioReadinto, File.sys, File.shortRead, hF] at h hsz
    split at h
    · split at h
      · simp at h
      · simp only [Prod.mk.injEq, Except.ok.injEq] at h
        rw [← h.1, List.length_take, List.length_drop]
        omega
    · split at h
      · simp at h
      · simp only [Prod.mk.injEq, Except.ok.injEq] at h
        rw [← h.1, List.length_take, List.length_drop]
        omega
    · simp at h

/-- The claim fails when a read inside the image is short (allowed by `read(2)`, and handled in
`ops.py`): the rest of the buffer is hashed as it was.  An image of 8 bytes read in two pieces. -/
theorem C22_counterexample_short_read :
    ∃ s : File.State, s.data = [1, 2, 3, 4, 5, 6, 7, 8] ∧
      (opRun (File.backend ⟨false, 4, true⟩) id true (fun _ => false) (plainZero 8) (zeros 8) s).1.toOption =
        some [1, 2, 3, 4, 0, 0, 0, 0] ∧
      blockChecksum id 8 s.data = [1, 2, 3, 4, 5, 6, 7, 8] :=
  ⟨⟨[1, 2, 3, 4, 5, 6, 7, 8], [], 0, true, true, true, [0], [], []⟩, rfl, by decide +kernel,
    by decide +kernel⟩

/-- An image with a zero extent in the middle, on the memory backend, with two descriptions. -/
example :
    (opRun Memory.backend id true (fun _ => false) (plainZero 6) (zeros 2)
      ⟨.r, [1, 2, 0, 0, 0, 3], 0, false⟩).1.toOption = some [1, 2, 0, 0, 0, 3] ∧
    (opRun Memory.backend id false (fun _ => false)
      [⟨0, 2, false, none⟩, ⟨2, 3, true, none⟩, ⟨5, 1, false, none⟩] [7, 7]
      ⟨.r, [1, 2, 0, 0, 0, 3], 0, false⟩).1.toOption = some [1, 2, 0, 0, 0, 3] := by decide +kernel

/-! ## C44 -/

/-- The block sizes that a client may use. -/
def BlockSizeAllowed (n : Nat) : Prop := 1024 * 1024 ≤ n ∧ n ≤ 16 * 1024 * 1024 ∧ n % 4096 = 0

/-- A block size is used only if it is allowed. -/
theorem C44_block_size {query : List (Str × Str)} {n : Nat} (h : reqBlockSize query = .ok n) :
    BlockSizeAllowed n := by
  have e1 : (minBlockSize : Int) = 1048576 := rfl
  have e2 : (maxBlockSize : Int) = 16777216 := rfl
  unfold reqBlockSize at h
  extract_lets size at h
  generalize size = x at h
  split at h
  · simp at h
  · split at h
    · simp at h
    next h1 =>
      split at h
      · simp at h
      next h2 =>
        simp only [Except.ok.injEq] at h
        unfold BlockSizeAllowed
        omega

/-- An allowed block size in the query is the block size used. -/
theorem C44_block_size_used {query : List (Str × Str)} {v : Str} {n : Nat}
    (hq : queryGet query (lit "block_size") = some v) (hv : Number v n) (hn : BlockSizeAllowed n) :
    reqBlockSize query = .ok n := by
  unfold reqBlockSize
  simp only [hq, pyInt_number hv, minBlockSize, maxBlockSize, defaultBlockSize]
  obtain ⟨h1, h2, h3⟩ := hn
  refine (if_neg (by omega)).trans ?_
  refine (if_neg (by omega)).trans ?_
  rfl

/-- Other numbers are refused. -/
theorem C44_block_size_refused {query : List (Str × Str)} {v : Str} {n : Nat}
    (hq : queryGet query (lit "block_size") = some v) (hv : Number v n) (hn : ¬ BlockSizeAllowed n) :
    reqBlockSize query = .error (.http 400) := by
  cases h : reqBlockSize query with
  | ok m =>
    have := C44_block_size h
    unfold reqBlockSize at h
    simp only [hq, pyInt_number hv] at h
    split at h
    · simp at h
    · split at h
      · simp at h
      · simp only [Except.ok.injEq, Int.toNat_natCast] at h
        exact absurd (h ▸ this) hn
  | error e =>
    unfold reqBlockSize at h
    simp only [hq, pyInt_number hv] at h
    split at h
    · simpa using h.symm
    · split at h
      · simpa using h.symm
      · simp at h

/-- The default block size. -/
theorem C44_block_size_default {query : List (Str × Str)}
    (hq : queryGet query (lit "block_size") = none) : reqBlockSize query = .ok (4 * 1024 * 1024) := by
  unfold reqBlockSize
  simp only [hq, minBlockSize, maxBlockSize, defaultBlockSize]
  rfl

/-- The digest algorithm a query asks for. -/
def Algorithm (query : List (Str × Str)) (algorithms : List Str) (name : Str) : Prop :=
  (queryGet query (lit "algorithm") = none ∧ name = lit "blake2b") ∨
    (queryGet query (lit "algorithm") = some name ∧ name ∈ algorithms)

theorem enumQuery_algorithm {query : List (Str × Str)} {algorithms : List Str} {name : Str} :
    enumQuery query (lit "algorithm") algorithms (lit "blake2b") = .ok name ↔
      Algorithm query algorithms name := by
  unfold enumQuery Algorithm
  cases queryGet query (lit "algorithm") with
  | none => simp [eq_comm]
  | some v =>
    by_cases h : v ∈ algorithms
    · simp only [h, if_true, Except.ok.injEq, reduceCtorEq, false_and, Option.some.injEq, false_or]
      constructor
      · rintro rfl; exact ⟨rfl, h⟩
      · rintro ⟨rfl, -⟩; rfl
    · simp only [h, if_false, reduceCtorEq, false_and, Option.some.injEq, false_or, false_iff]
      rintro ⟨rfl, h'⟩
      exact h h'

theorem aligned_4096 {b n : Nat} (hb : 4096 % b = 0) (hn : n % 4096 = 0) : n % b = 0 := by
  obtain ⟨k, hk⟩ := Nat.dvd_of_mod_eq_zero hb
  obtain ⟨j, hj⟩ := Nat.dvd_of_mod_eq_zero hn
  rw [hj, hk, Nat.mul_assoc]
  exact Nat.mul_mod_right ..

theorem getChecksum_spec {σ : Type} {B : Backend σ} {L : Lawful B} {F : σ → Prop} (hf : FullReads L F)
    (hb : 4096 % B.blockSize = 0) {a : Access} {algorithms : List Str} {funcs : Str → Bytes → Bytes}
    {ticketId : Str} {query : List (Str × Str)} {es : List ZeroExtent} {s : σ} {c : Conn}
    (hi : L.Inv s) (hF : F s) (hv : Valid (L.content s) (B.size s) es)
    (hsb : B.size s % B.blockSize = 0) (r : Except HErr (Option Response)) (s' : σ) (c' : Conn)
    (h : getChecksum B a algorithms funcs ticketId query es s c = (r, s', c')) :
    (L.Inv s' ∧ L.content s' = L.content s ∧ L.durable s' = L.durable s) ∧
    ((∃ e, r = .error e ∧
      (ticketId = [] ∨ (∀ name, ¬ Algorithm query algorithms name) ∨ (∃ e, reqBlockSize query = .error e) ∨
       a.auth ≠ none ∨ a.refused = true ∨ a.canceled = true ∨ ∃ k, k ≤ B.size s ∧ L.mayFail k)) ∨
     ∃ name n, r = .ok (some ⟨name, n, blockChecksum (funcs name) n (load (L.content s) 0 (B.size s))⟩) ∧
       ticketId ≠ [] ∧ Algorithm query algorithms name ∧ reqBlockSize query = .ok n ∧ a.auth = none ∧
       a.refused = false ∧ a.canceled = false) := by
  unfold getChecksum at h
  by_cases ht : ticketId = []
  · rw [if_pos ht] at h
    cases h
    exact ⟨⟨hi, rfl, rfl⟩, .inl ⟨_, rfl, .inl ht⟩⟩
  rw [if_neg ht] at h
  cases hq : enumQuery query (lit "algorithm") algorithms (lit "blake2b") with
  | error e =>
    simp only [hq] at h
    cases h
    refine ⟨⟨hi, rfl, rfl⟩, .inl ⟨_, rfl, .inr (.inl ?_)⟩⟩
    intro name hname
    rw [enumQuery_algorithm.2 hname] at hq
    cases hq
  | ok name =>
    have hname := enumQuery_algorithm.1 hq
    simp only [hq] at h
    cases hn : reqBlockSize query with
    | error e =>
      simp only [hn] at h
      cases h
      exact ⟨⟨hi, rfl, rfl⟩, .inl ⟨_, rfl, .inr (.inr (.inl ⟨e, rfl⟩))⟩⟩
    | ok n =>
      obtain ⟨n1, n2, n3⟩ := C44_block_size hn
      simp only [hn] at h
      cases ha : a.auth with
      | some e =>
        simp only [ha] at h
        cases e
        all_goals
          simp only at h
          cases h
          exact ⟨⟨hi, rfl, rfl⟩, .inl ⟨_, rfl, .inr (.inr (.inr (.inl (by simp))))⟩⟩
      | none =>
        simp only [ha, ticketRun] at h
        by_cases hr : a.refused = true
        · simp only [hr, if_true] at h
          cases h
          exact ⟨⟨hi, rfl, rfl⟩, .inl ⟨_, rfl, .inr (.inr (.inr (.inr (.inl hr))))⟩⟩
        simp only [hr, Bool.false_eq_true, if_false] at h
        have hlen : (zeros n).length = n := by simp [zeros]
        have hs := @opRun_spec σ B L F hf (funcs name) true a.cancel (zeros n) (by omega)
          (by rw [hlen]; exact aligned_4096 hb n3) s hi hF es hv hsb
        generalize opRun B (funcs name) true a.cancel es (zeros n) s = x at h hs
        obtain ⟨rr, st⟩ := x
        obtain ⟨⟨o1, -, o2, o3, -⟩, o4⟩ := hs rfl
        rw [hlen] at o4
        by_cases hc : a.canceled = true
        · simp only [hc, if_true] at h
          cases rr
          all_goals
            simp only at h
            cases h
            exact ⟨⟨o1, o2, o3⟩, .inl ⟨_, rfl, .inr (.inr (.inr (.inr (.inr (.inl hc)))))⟩⟩
        · simp only [hc, Bool.false_eq_true, if_false] at h
          rcases o4 with rfl | ⟨rfl, k, hk⟩ | ⟨e, k, rfl, he, hk, hm⟩
          · simp only at h
            cases h
            exact ⟨⟨o1, o2, o3⟩, .inr ⟨name, n, rfl, ht, hname, rfl, rfl, by simpa using hr,
              by simpa using hc⟩⟩
          · exact absurd (a.canceled_of k hk) hc
          · cases e <;> simp [External] at he
            all_goals
              simp only at h
              cases h
              exact ⟨⟨o1, o2, o3⟩, .inl ⟨_, rfl, .inr (.inr (.inr (.inr (.inr (.inr ⟨k, hk, hm⟩)))))⟩⟩

/-- Partial: the checksum reported is the checksum of exactly the image of the backend, with the
algorithm and block size of the request, and it is reported only to an authorized request on a
ticket that was not canceled.  Missing: the image of the backend may be bigger than the size of the
ticket, see `C44_counterexample_ticket_size`. -/
theorem C44_exact_partial {σ : Type} {B : Backend σ} {L : Lawful B} {F : σ → Prop} (hf : FullReads L F)
    (hb : 4096 % B.blockSize = 0) {a : Access} {algorithms : List Str} {funcs : Str → Bytes → Bytes}
    {ticketId : Str} {query : List (Str × Str)} {es : List ZeroExtent} {s : σ} {c : Conn}
    (hi : L.Inv s) (hF : F s) (hv : Valid (L.content s) (B.size s) es)
    (hsb : B.size s % B.blockSize = 0) {resp : Response} {s' : σ} {c' : Conn}
    (h : getChecksum B a algorithms funcs ticketId query es s c = (.ok (some resp), s', c')) :
    resp.checksum =
      blockChecksum (funcs resp.algorithm) resp.blockSize (load (L.content s) 0 (B.size s)) ∧
    Algorithm query algorithms resp.algorithm ∧ reqBlockSize query = .ok resp.blockSize ∧
    a.auth = none ∧ a.refused = false ∧ a.canceled = false := by
  rcases (getChecksum_spec hf hb hi hF hv hsb _ _ _ h).2 with ⟨e, h, -⟩ | ⟨name, n, h, -, h1, h2, h3⟩
  · simp at h
  · simp only [Except.ok.injEq, Option.some.injEq] at h
    subst h
    exact ⟨rfl, h1, h2, h3⟩

/-- The response is a checksum or an error, never a response without a checksum, and the image is
not modified. -/
theorem C44_response {σ : Type} {B : Backend σ} {L : Lawful B} {F : σ → Prop} (hf : FullReads L F)
    (hb : 4096 % B.blockSize = 0) {a : Access} {algorithms : List Str} {funcs : Str → Bytes → Bytes}
    {ticketId : Str} {query : List (Str × Str)} {es : List ZeroExtent} {s : σ} {c : Conn}
    (hi : L.Inv s) (hF : F s) (hv : Valid (L.content s) (B.size s) es)
    (hsb : B.size s % B.blockSize = 0) {r : Except HErr (Option Response)} {s' : σ} {c' : Conn}
    (h : getChecksum B a algorithms funcs ticketId query es s c = (r, s', c')) :
    r ≠ .ok none ∧ L.content s' = L.content s ∧ L.durable s' = L.durable s := by
  obtain ⟨⟨-, h1, h2⟩, h3⟩ := getChecksum_spec hf hb hi hF hv hsb _ _ _ h
  refine ⟨?_, h1, h2⟩
  rcases h3 with ⟨e, rfl, -⟩ | ⟨name, n, rfl, -⟩ <;> simp

/-- A request on a ticket that was canceled before the end of the operation gets no checksum. -/
theorem C44_canceled {σ : Type} {B : Backend σ} {L : Lawful B} {F : σ → Prop} (hf : FullReads L F)
    (hb : 4096 % B.blockSize = 0) {a : Access} {algorithms : List Str} {funcs : Str → Bytes → Bytes}
    {ticketId : Str} {query : List (Str × Str)} {es : List ZeroExtent} {s : σ} {c : Conn}
    (hi : L.Inv s) (hF : F s) (hv : Valid (L.content s) (B.size s) es)
    (hsb : B.size s % B.blockSize = 0) (hc : a.canceled = true) {r : Except HErr (Option Response)}
    {s' : σ} {c' : Conn}
    (h : getChecksum B a algorithms funcs ticketId query es s c = (r, s', c')) : ∃ e, r = .error e := by
  rcases (getChecksum_spec hf hb hi hF hv hsb _ _ _ h).2 with ⟨e, h, -⟩ | ⟨_, _, -, -, -, -, -, -, h⟩
  · exact ⟨e, h⟩
  · rw [hc] at h
    cases h

/-- A valid request gets the checksum, unless the storage fails. -/
theorem C44_served {σ : Type} {B : Backend σ} {L : Lawful B} {F : σ → Prop} (hf : FullReads L F)
    (hb : 4096 % B.blockSize = 0) {a : Access} {algorithms : List Str} {funcs : Str → Bytes → Bytes}
    {ticketId : Str} {query : List (Str × Str)} {es : List ZeroExtent} {s : σ} {c : Conn}
    (hi : L.Inv s) (hF : F s) (hv : Valid (L.content s) (B.size s) es)
    (hsb : B.size s % B.blockSize = 0) (hm : ∀ k, k ≤ B.size s → ¬ L.mayFail k)
    (ht : ticketId ≠ []) (ha : a.auth = none) (href : a.refused = false) (hc : a.canceled = false)
    {name : Str} (hname : Algorithm query algorithms name) {n : Nat} (hn : reqBlockSize query = .ok n) :
    ∃ s' c', getChecksum B a algorithms funcs ticketId query es s c =
      (.ok (some ⟨name, n, blockChecksum (funcs name) n (load (L.content s) 0 (B.size s))⟩), s', c') := by
  have hs := @getChecksum_spec σ B L F hf hb a algorithms funcs ticketId query es s c hi hF hv hsb
  generalize getChecksum B a algorithms funcs ticketId query es s c = x at hs
  obtain ⟨r, s', c'⟩ := x
  rcases (hs r s' c' rfl).2 with ⟨e, -, h | h | ⟨e, h⟩ | h | h | h | ⟨k, h1, h2⟩⟩ | ⟨name', n', h, -, h1, h2, -⟩
  · exact absurd h ht
  · exact absurd hname (h name)
  · rw [hn] at h; cases h
  · exact absurd ha h
  · rw [href] at h; cases h
  · rw [hc] at h; cases h
  · exact absurd h2 (hm k h1)
  · have e1 : name' = name := by
      have a1 := enumQuery_algorithm.2 h1
      rw [enumQuery_algorithm.2 hname] at a1
      simpa using a1.symm
    have e2 : n' = n := by
      rw [hn] at h2
      simpa using h2.symm
    subst e1 e2
    exact ⟨s', c', by rw [h]⟩

/-- A ticket of 1 byte on an NBD export of 2 bytes: the checksum depends on the byte that cannot be
read with this ticket (`checksum.py:103` uses the size of the backend).  The claim is false, and the
same request also breaks the bound of C12. -/
theorem C44_counterexample_ticket_size :
    ∃ (s t : NbdBackend.State) (a : Access) (q : List (Str × Str)) (u v : Bytes) (s' t' : NbdBackend.State)
      (c c' : Conn),
      a.size = 1 ∧ byteAt s.export_ 0 = byteAt t.export_ 0 ∧
      getChecksum (NbdBackend.backend 1) a [] (fun _ x => x) (lit "ticket") q (plainZero 2) s (busy "0" []) =
        (.ok (some ⟨lit "blake2b", 4 * 1024 * 1024, u⟩), s', c) ∧
      getChecksum (NbdBackend.backend 1) a [] (fun _ x => x) (lit "ticket") q (plainZero 2) t (busy "0" []) =
        (.ok (some ⟨lit "blake2b", 4 * 1024 * 1024, v⟩), t', c') ∧ u ≠ v := by
  have hn : reqBlockSize [] = .ok (4 * 1024 * 1024) := C44_block_size_default rfl
  have key : ∀ y : Byte, ∃ s' c', getChecksum (NbdBackend.backend 1) (authorized 1) [] (fun _ x => x)
      (lit "ticket") [] (plainZero 2) ⟨.rw, 1, [1, y], [1, y], 0, true, true, []⟩ (busy "0" []) =
        (.ok (some ⟨lit "blake2b", 4 * 1024 * 1024, [1, y]⟩), s', c') := by
    intro y
    obtain ⟨s', c', h⟩ := C44_served (nbd_fullReads 1 (by decide) True 2 (fun _ => rfl))
      (by decide) (a := authorized 1) (algorithms := []) (funcs := fun _ x => x) (ticketId := lit "ticket")
      (query := []) (es := plainZero 2) (s := ⟨.rw, 1, [1, y], [1, y], 0, true, true, []⟩) (c := busy "0" [])
      ⟨rfl, rfl, rfl, fun _ => ⟨rfl, rfl, rfl⟩⟩ trivial
      (C22_plain_valid _ 2 (by decide)) (Nat.mod_one _)
      (by intro k hk; simp only [NbdBackend.lawful, not_or, Classical.not_not, Nat.not_lt]
          exact ⟨trivial, hk⟩)
      (by decide) rfl rfl rfl (name := lit "blake2b") (.inl ⟨rfl, rfl⟩) hn
    refine ⟨s', c', h.trans ?_⟩
    have e : load ((NbdBackend.lawful 1 (by decide) True 2 (fun _ => rfl)).content
        ⟨.rw, 1, [1, y], [1, y], 0, true, true, []⟩) 0 2 = [1, y] := rfl
    have e2 : blockChecksum (fun x => x) (4 * 1024 * 1024) [1, y] = [1, y] := by
      rw [blockChecksum, chunks_short (by simp) (by simp)]
      simp
    have e3 : (NbdBackend.backend 1).size ⟨.rw, 1, [1, y], [1, y], 0, true, true, []⟩ = 2 := rfl
    rw [e3, e, e2]
  obtain ⟨s', c, h1⟩ := key 2
  obtain ⟨t', c', h2⟩ := key 3
  exact ⟨⟨.rw, 1, [1, 2], [1, 2], 0, true, true, []⟩, ⟨.rw, 1, [1, 3], [1, 3], 0, true, true, []⟩,
    authorized 1, [], [1, 2], [1, 3], s', t', c, c', rfl, rfl, h1, h2, by decide⟩

/-- A file whose size is not a multiple of the block size has no checksum: the last block is read
with direct I/O and its real length. -/
theorem C44_counterexample_unaligned_size :
    ∃ s : File.State, s.faults = [] ∧ s.shortR = [] ∧ s.data.length = 6 ∧
      (opRun (File.backend ⟨false, 4, true⟩) id true (fun _ => false) (plainZero 6) (zeros 8) s).1.toOption =
        none :=
  ⟨⟨[1, 2, 3, 4, 5, 6], [], 0, true, true, true, [], [], []⟩, rfl, rfl, rfl, by decide +kernel⟩

/-- The hypotheses of the theorems above hold for an export of three bytes described by two
extents. -/
example : (NbdBackend.lawful 1 (by decide) True 3 (fun _ => rfl)).Inv ⟨.rw, 1, [1, 0, 0], [], 0, true, true, []⟩ ∧
    Valid (byteAt [1, 0, 0]) 3 [⟨0, 1, false, some false⟩, ⟨1, 2, true, some true⟩] := by
  refine ⟨⟨rfl, rfl, rfl, fun _ => ⟨rfl, rfl, rfl⟩⟩, .cons (by decide) (.cons (by decide) (.nil _)), ?_⟩
  intro e he hz k h1 h2
  simp only [List.mem_cons, List.not_mem_nil, or_false] at he
  rcases he with rfl | rfl
  · simp at hz
  · simp only at h1 h2
    obtain rfl | rfl : k = 1 ∨ k = 2 := by omega
    · rfl
    · rfl

example : BlockSizeAllowed (2 * 1024 * 1024) ∧ ¬ BlockSizeAllowed 4096 := by
  simp [BlockSizeAllowed]

end Imageio.Props
