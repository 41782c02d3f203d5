import Verif.Lemmas.ClientIoExec
import Verif.Spec.Extents
import Mathlib.Logic.Relation
/-! Properties of the concurrent copy of the client (C28, C29, C30, C33, C34, and C32 for the copy). -/
namespace Imageio.Props
open Imageio Imageio.Io Imageio.Extents Imageio.Spec

/-! ## C30 -/

theorem splitFrom_spec (op : ReqOp) (step start length : Nat) (hs : 0 < step) :
    (∀ x ∈ splitFrom op step start length, x.op = op ∧ x.length ≤ step) ∧
    (0 < length → Tiles start ((splitFrom op step start length).map fun x => (x.start, x.length))
      (start + length)) := by
  induction length using Nat.strongRecOn generalizing start with
  | _ length ih =>
    rw [splitFrom]
    by_cases h : 0 < step ∧ step < length
    · rw [dif_pos h]
      obtain ⟨ih1, ih2⟩ := ih (length - step) (by omega) (start + step)
      constructor
      · intro x hx
        rcases List.mem_cons.1 hx with rfl | hx
        · exact ⟨rfl, Nat.le_refl _⟩
        · exact ih1 x hx
      · intro _
        have := ih2 (by omega)
        rw [show start + step + (length - step) = start + length by omega] at this
        exact .cons hs this
    · rw [dif_neg h]
      constructor
      · intro x hx
        simp only [List.mem_singleton] at hx
        subst hx
        exact ⟨rfl, by simp only; omega⟩
      · intro hl
        exact .cons hl (.nil _)

theorem maxReqSize_eq (op : ReqOp) : maxReqSize op = 128 * 1024 ^ 2 := by cases op <;> rfl

/-- The pieces of a request that is not empty are not empty, follow each other, and cover exactly its
bytes; all have its operation, and none is longer than 128 MiB. -/
theorem C30_split (r : Req) :
    (∀ x ∈ split r, x.op = r.op ∧ x.length ≤ 128 * 1024 ^ 2) ∧
    (0 < r.length → Tiles r.start ((split r).map fun x => (x.start, x.length)) (r.start + r.length)) := by
  have := splitFrom_spec r.op (maxReqSize r.op) r.start r.length (by rw [maxReqSize_eq]; decide)
  rw [maxReqSize_eq] at this
  unfold split
  rw [maxReqSize_eq]
  exact this

/-- An empty request is one empty piece. -/
theorem C30_empty (op : ReqOp) (start : Nat) : split ⟨op, start, 0⟩ = [⟨op, start, 0⟩] := by
  unfold split
  rw [splitFrom, dif_neg (by simp)]

/-- A request of at most 128 MiB is not split. -/
theorem C30_small (r : Req) (h : r.length ≤ 128 * 1024 ^ 2) : split r = [r] := by
  unfold split
  rw [maxReqSize_eq, splitFrom, dif_neg (by omega)]

/-- The number of pieces: as few as possible. -/
theorem C30_count (r : Req) (h : 0 < r.length) :
    (split r).length = (r.length + 128 * 1024 ^ 2 - 1) / (128 * 1024 ^ 2) := by
  have key : ∀ (op : ReqOp) (step start length : Nat), 0 < step → 0 < length →
      (splitFrom op step start length).length = (length + step - 1) / step := by
    intro op step start length hs hl
    induction length using Nat.strongRecOn generalizing start with
    | _ length ih =>
      rw [splitFrom]
      by_cases h : 0 < step ∧ step < length
      · rw [dif_pos h, List.length_cons, ih (length - step) (by omega) _ (by omega)]
        rw [show length + step - 1 = (length - step + step - 1) + step by omega,
          Nat.add_div_right _ hs]
      · rw [dif_neg h, List.length_singleton]
        rw [show length + step - 1 = (length - 1) + step by omega, Nat.add_div_right _ hs,
          Nat.div_eq_of_lt (by omega)]
  unfold split
  rw [maxReqSize_eq]
  exact key _ _ _ _ (by decide) h

theorem tiles_le {s e : Nat} {m : List (Nat × Nat)} (h : Tiles s m e) : s ≤ e := by
  induction h with
  | nil => exact Nat.le_refl _
  | cons _ _ ih => omega

theorem tiles_covers {l : List Req} {s e : Nat} (h : Tiles s (l.map fun x => (x.start, x.length)) e)
    (i : Nat) : (∃ x ∈ l, x.covers i) ↔ s ≤ i ∧ i < e := by
  generalize hm : (l.map fun x => (x.start, x.length)) = m at h
  induction h generalizing l with
  | nil s =>
    rw [List.map_eq_nil_iff] at hm; subst hm
    simp
  | @cons s len e m hlen h ih =>
    rw [List.map_eq_cons_iff] at hm
    obtain ⟨x, xs, rfl, hx, hxs⟩ := hm
    simp only [Prod.mk.injEq] at hx
    have := ih hxs
    have hle := tiles_le h
    simp only [List.mem_cons, exists_eq_or_imp, this]
    simp only [Req.covers]
    omega

theorem splitFrom_covers (op : ReqOp) (step start length : Nat) (hs : 0 < step) (i : Nat) :
    (∃ x ∈ splitFrom op step start length, x.covers i) ↔ start ≤ i ∧ i < start + length := by
  by_cases hl : 0 < length
  · exact tiles_covers ((splitFrom_spec op step start length hs).2 hl) i
  · rw [splitFrom, dif_neg (by omega)]
    simp [Req.covers]

/-- A byte is in a piece exactly when it is in the request. -/
theorem C30_covers (r : Req) (i : Nat) :
    (∃ x ∈ split r, x.start ≤ i ∧ i < x.start + x.length) ↔ r.start ≤ i ∧ i < r.start + r.length :=
  splitFrom_covers r.op _ r.start r.length (by rw [maxReqSize_eq]; decide) i

/-- The pieces of a submitted request are put in the queue in this order. -/
theorem C30_submitted (r : Req) : reqs (submit r) = split r := by
  simp only [submit, reqs, List.filterMap_map]
  exact List.filterMap_some

/-! ## The storage calls of a request -/

theorem genericCopy_eq (step start todo : Nat) :
    genericCopy step start todo = splitFrom .copy step start todo := by
  induction todo using Nat.strongRecOn generalizing start with
  | _ todo ih =>
    rw [genericCopy, splitFrom]
    by_cases h : 0 < step ∧ step < todo
    · rw [dif_pos h, dif_pos h, ih _ (by omega)]
    · rw [dif_neg h, dif_neg h]

/-- The ways to execute a request: with a buffer, or in one call. -/
def CutOf (cut : Req → List Req) : Prop := (∃ b, 0 < b ∧ cut = cutGeneric b) ∨ cut = cutWhole

theorem exact_of_cut {cut : Req → List Req} (h : CutOf cut) : Exact cut := by
  rcases h with ⟨b, hb, rfl⟩ | rfl
  · intro r hr
    unfold cutGeneric
    split
    · rename_i hop
      rw [genericCopy_eq]
      have hs : 0 < min b maxBufferSize := by simp only [maxBufferSize]; omega
      exact ⟨fun x hx => by rw [hop]; exact ((splitFrom_spec _ _ _ _ hs).1 x hx).1,
        fun i => splitFrom_covers _ _ _ _ hs i⟩
    · simp
  · intro r hr
    simp [cutWhole]

/-- The storage calls of a request with a buffer never use more than the buffer, nor more than the
32 MiB that a server of the NBD protocol accepts. -/
theorem C30_buffer (b : Nat) (hb : 0 < b) (r : Req) (hr : r.op = .copy) :
    ∀ x ∈ cutGeneric b r, x.length ≤ b ∧ x.length ≤ 32 * 1024 ^ 2 := by
  intro x hx
  unfold cutGeneric at hx
  rw [hr] at hx
  simp only [genericCopy_eq] at hx
  have hs : 0 < min b maxBufferSize := by simp only [maxBufferSize]; omega
  have := ((splitFrom_spec _ _ _ _ hs).1 x hx).2
  simp only [maxBufferSize] at this
  omega

/-! ## The requests for the extents -/

theorem mem_reqs_flatMap {β : Type} (l : List β) (f : β → List Act) (r : Req) :
    r ∈ reqs (l.flatMap f) ↔ ∃ e ∈ l, r ∈ reqs (f e) := by
  simp only [reqs, List.mem_filterMap, List.mem_flatMap]
  constructor
  · rintro ⟨a, ⟨e, he, ha⟩, h⟩; exact ⟨e, he, a, ha, h⟩
  · rintro ⟨e, he, a, ha, h⟩; exact ⟨a, ⟨e, he, ha⟩, h⟩

/-- The extent is written with zeroes. -/
def Zeroed (zero hole : Bool) (e : ZeroExtent) : Prop :=
  e.zero = true ∧ zero = true ∧ (e.hole = some true → hole = true)

instance (zero hole : Bool) (e : ZeroExtent) : Decidable (Zeroed zero hole e) := by
  unfold Zeroed; infer_instance

theorem reqs_skip (l : Nat) : reqs [.skip l] = [] := rfl

theorem reqs_dataActs (zero hole : Bool) (e : ZeroExtent) :
    reqs (dataActs zero hole e) =
      if e.zero = false then split ⟨.copy, e.start, e.length⟩
      else if Zeroed zero hole e then split ⟨.zero, e.start, e.length⟩ else [] := by
  unfold dataActs Zeroed
  rcases e with ⟨st, len, z, hl⟩
  cases z <;> cases zero <;> cases hole <;> rcases hl with _ | _ | _ <;>
    simp [C30_submitted, reqs_skip]

theorem reqs_dirtyActs (e : DirtyExtent) :
    reqs (dirtyActs e) =
      if e.dirty = false then []
      else if e.zero = false then split ⟨.copy, e.start, e.length⟩
      else split ⟨.zero, e.start, e.length⟩ := by
  unfold dirtyActs
  rcases e with ⟨st, len, dd, z⟩
  cases z <;> cases dd <;> simp [C30_submitted, reqs_skip]

theorem split_op {r x : Req} (h : x ∈ split r) : x.op = r.op := ((C30_split r).1 x h).1

theorem copyData_no_stop (zero hole : Bool) (exts : List ZeroExtent) :
    ∀ r ∈ reqs (copyData zero hole exts), r.op ≠ .stop := by
  intro r hr
  unfold copyData at hr
  rw [mem_reqs_flatMap] at hr
  obtain ⟨e, he, hr⟩ := hr
  rw [reqs_dataActs] at hr
  split at hr
  · rw [split_op hr]; simp
  · split at hr
    · rw [split_op hr]; simp
    · simp at hr

theorem copyDirty_no_stop (exts : List DirtyExtent) : ∀ r ∈ reqs (copyDirty exts), r.op ≠ .stop := by
  intro r hr
  unfold copyDirty at hr
  rw [mem_reqs_flatMap] at hr
  obtain ⟨e, he, hr⟩ := hr
  rw [reqs_dirtyActs] at hr
  split at hr
  · simp at hr
  · split at hr
    · rw [split_op hr]; simp
    · rw [split_op hr]; simp

theorem tiles_unique {β : Type} {l : List β} {f g : β → Nat} {s e : Nat}
    (h : Tiles s (l.map fun x => (f x, g x)) e) {a b : β} (ha : a ∈ l) (hb : b ∈ l) {i : Nat}
    (h1 : f a ≤ i ∧ i < f a + g a) (h2 : f b ≤ i ∧ i < f b + g b) : a = b := by
  generalize hm : (l.map fun x => (f x, g x)) = m at h
  have low : ∀ {s m e}, Tiles s m e → ∀ x ∈ m, s ≤ x.1 := by
    intro s m e h
    induction h with
    | nil => simp
    | cons hlen h ih =>
      intro x hx
      rcases List.mem_cons.1 hx with rfl | hx
      · exact Nat.le_refl _
      · have := ih x hx; omega
  induction h generalizing l with
  | nil => rw [List.map_eq_nil_iff] at hm; subst hm; simp at ha
  | @cons s len e m hlen h ih =>
    rw [List.map_eq_cons_iff] at hm
    obtain ⟨x, xs, rfl, hx, hxs⟩ := hm
    simp only [Prod.mk.injEq] at hx
    have hlow : ∀ y ∈ xs, s + len ≤ f y := by
      intro y hy
      have := low h (f y, g y) (by rw [← hxs]; exact List.mem_map.2 ⟨y, hy, rfl⟩)
      exact this
    rcases List.mem_cons.1 ha with ha | ha <;> rcases List.mem_cons.1 hb with hb | hb
    · rw [ha, hb]
    · have := hlow b hb; subst ha; omega
    · have := hlow a ha; subst hb; omega
    · exact ih ha hb hxs

theorem tiles_mem {β : Type} {l : List β} {f g : β → Nat} {s e : Nat}
    (h : Tiles s (l.map fun x => (f x, g x)) e) {i : Nat} :
    (s ≤ i ∧ i < e) ↔ ∃ a ∈ l, f a ≤ i ∧ i < f a + g a := by
  generalize hm : (l.map fun x => (f x, g x)) = m at h
  induction h generalizing l with
  | nil => rw [List.map_eq_nil_iff] at hm; subst hm; simp
  | @cons s len e m hlen h ih =>
    rw [List.map_eq_cons_iff] at hm
    obtain ⟨x, xs, rfl, hx, hxs⟩ := hm
    simp only [Prod.mk.injEq] at hx
    have hle := tiles_le h
    have := ih hxs
    simp only [List.mem_cons, exists_eq_or_imp, ← this]
    omega

/-- The extents of an image of `size` bytes (`C20`). -/
def Complete (exts : List ZeroExtent) (size : Nat) : Prop :=
  Tiles 0 (exts.map fun e => (e.start, e.length)) size

/-- A byte of an extent. -/
def InExt (e : ZeroExtent) (i : Nat) : Prop := e.start ≤ i ∧ i < e.start + e.length

/-! ## C28 -/

/-- What a copy that returned has done to every byte of the image, for all options: a byte of a data
extent was copied, a byte of a zeroed extent is zero, and a byte of a skipped extent did not change. -/
theorem C28_bytes {c : Cfg} (hc : CutOf c.cut) (hn : 0 < c.workers) {zero hole : Bool}
    {exts : List ZeroExtent} {size : Nat} (ht : Complete exts size) {d : Nat → Byte} {s : Ex}
    (h : Ex.Reachable c (copyData zero hole exts) d s) (hd : s.main = .done none)
    {e : ZeroExtent} (he : e ∈ exts) {i : Nat} (hi : InExt e i) :
    s.dst i = if e.zero = false then c.src i else if Zeroed zero hole e then 0 else d i := by
  have hr : ∀ r, r ∈ reqs (copyData zero hole exts) ∧ r.covers i ↔
      r ∈ reqs (dataActs zero hole e) ∧ r.covers i := by
    intro r
    unfold copyData
    rw [mem_reqs_flatMap]
    constructor
    · rintro ⟨⟨e', he', hr⟩, hri⟩
      have : e' = e := by
        refine tiles_unique ht he' he (i := i) ?_ hi
        rw [reqs_dataActs] at hr
        split at hr
        · exact (C30_covers ⟨.copy, e'.start, e'.length⟩ i).1 ⟨r, hr, hri⟩
        · split at hr
          · exact (C30_covers ⟨.zero, e'.start, e'.length⟩ i).1 ⟨r, hr, hri⟩
          · simp at hr
      subst this
      exact ⟨hr, hri⟩
    · rintro ⟨hr, hri⟩; exact ⟨⟨e, he, hr⟩, hri⟩
  have hex : (∃ r ∈ reqs (copyData zero hole exts), r.covers i) ↔
      ∃ r ∈ reqs (dataActs zero hole e), r.covers i :=
    exists_congr hr
  have key := fun op => final_byte (copyData_no_stop zero hole exts) (exact_of_cut hc) h hn hd i op
  by_cases hz : e.zero = false
  · rw [if_pos hz, key .copy, if_pos]
    · rw [hex, reqs_dataActs, if_pos hz]
      exact (C30_covers ⟨.copy, e.start, e.length⟩ i).2 hi
    · intro r hr' hri
      have := ((hr r).1 ⟨hr', hri⟩).1
      rw [reqs_dataActs, if_pos hz] at this
      exact split_op this
  · rw [if_neg hz]
    by_cases hzz : Zeroed zero hole e
    · rw [if_pos hzz, key .zero, if_pos]
      · rw [hex, reqs_dataActs, if_neg hz, if_pos hzz]
        exact (C30_covers ⟨.zero, e.start, e.length⟩ i).2 hi
      · intro r hr' hri
        have := ((hr r).1 ⟨hr', hri⟩).1
        rw [reqs_dataActs, if_neg hz, if_pos hzz] at this
        exact split_op this
    · rw [if_neg hzz]
      refine outside_byte (copyData_no_stop zero hole exts) (exact_of_cut hc) h i ?_
      intro r hr' hri
      have := ((hr r).1 ⟨hr', hri⟩).1
      rw [reqs_dataActs, if_neg hz, if_neg hzz] at this
      simp at this

/-- The zero extents read as zeroes. -/
def Truthful (exts : List ZeroExtent) (src : Nat → Byte) : Prop :=
  ∀ e ∈ exts, e.zero = true → ∀ i, InExt e i → src i = 0

/-- A copy with the default options that returned has made the destination equal to the source, whatever
was in the destination, and whatever the number of workers, the size of the buffer and the schedule. -/
theorem C28_copy {c : Cfg} (hc : CutOf c.cut) (hn : 0 < c.workers)
    {exts : List ZeroExtent} {size : Nat} (ht : Complete exts size) (hz : Truthful exts c.src)
    {d : Nat → Byte} {s : Ex} (h : Ex.Reachable c (copyData true true exts) d s)
    (hd : s.main = .done none) : ∀ i, i < size → s.dst i = c.src i := by
  intro i hi
  obtain ⟨e, he, hie⟩ := (tiles_mem ht).1 ⟨Nat.zero_le i, hi⟩
  rw [C28_bytes hc hn ht h hd he hie]
  split
  · rfl
  · rename_i hne
    have hze : e.zero = true := by simpa using hne
    rw [if_pos ⟨hze, rfl, fun _ => rfl⟩, hz e he hze i hie]

/-- With `zero=False` the destination is equal to the source if it was zero before. -/
theorem C28_empty_destination {c : Cfg} (hc : CutOf c.cut) (hn : 0 < c.workers) {zero hole : Bool}
    {exts : List ZeroExtent} {size : Nat} (ht : Complete exts size) (hz : Truthful exts c.src)
    {d : Nat → Byte} (h0 : ∀ i, i < size → d i = 0) {s : Ex}
    (h : Ex.Reachable c (copyData zero hole exts) d s) (hd : s.main = .done none) :
    ∀ i, i < size → s.dst i = c.src i := by
  intro i hi
  obtain ⟨e, he, hie⟩ := (tiles_mem ht).1 ⟨Nat.zero_le i, hi⟩
  rw [C28_bytes hc hn ht h hd he hie]
  split
  · rfl
  · rename_i hne
    have hze : e.zero = true := by simpa using hne
    rw [hz e he hze i hie, h0 i hi]
    simp

/-- With `hole=False` the bytes of holes do not change, and all other bytes are equal to the source:
the destination shows its backing file in the holes. -/
theorem C28_holes {c : Cfg} (hc : CutOf c.cut) (hn : 0 < c.workers)
    {exts : List ZeroExtent} {size : Nat} (ht : Complete exts size) (hz : Truthful exts c.src)
    {d : Nat → Byte} {s : Ex} (h : Ex.Reachable c (copyData true false exts) d s)
    (hd : s.main = .done none) {e : ZeroExtent} (he : e ∈ exts) {i : Nat} (hi : InExt e i) :
    s.dst i = if e.zero = true ∧ e.hole = some true then d i else c.src i := by
  rw [C28_bytes hc hn ht h hd he hi]
  by_cases hze : e.zero = true
  · rw [if_neg (by simp [hze])]
    by_cases hh : e.hole = some true
    · rw [if_neg (by simp [Zeroed, hh]), if_pos ⟨hze, hh⟩]
    · rw [if_pos ⟨hze, rfl, fun hx => absurd hx hh⟩, if_neg (fun hx => hh hx.2), hz e he hze i hi]
  · rw [if_pos (by simpa using hze), if_neg (fun hx => hze hx.1)]

/-- A copy never changes anything after the end of the image, not even when it fails. -/
theorem C28_outside {c : Cfg} (hc : CutOf c.cut) {zero hole : Bool}
    {exts : List ZeroExtent} {size : Nat} (ht : Complete exts size) {d : Nat → Byte} {s : Ex}
    (h : Ex.Reachable c (copyData zero hole exts) d s) : ∀ i, size ≤ i → s.dst i = d i := by
  intro i hi
  refine outside_byte (copyData_no_stop zero hole exts) (exact_of_cut hc) h i ?_
  intro r hr hri
  unfold copyData at hr
  rw [mem_reqs_flatMap] at hr
  obtain ⟨e, he, hr⟩ := hr
  have hie : InExt e i := by
    rw [reqs_dataActs] at hr
    split at hr
    · exact (C30_covers ⟨.copy, e.start, e.length⟩ i).1 ⟨r, hr, hri⟩
    · split at hr
      · exact (C30_covers ⟨.zero, e.start, e.length⟩ i).1 ⟨r, hr, hri⟩
      · simp at hr
  have := (tiles_mem ht).2 ⟨e, he, hie⟩
  omega

/-! ## C29 -/

/-- A byte of a dirty extent. -/
def InDirty (e : DirtyExtent) (i : Nat) : Prop := e.start ≤ i ∧ i < e.start + e.length

theorem dirty_covers {e : DirtyExtent} {r : Req} {i : Nat} (hr : r ∈ reqs (dirtyActs e))
    (hri : r.covers i) : e.dirty = true ∧ InDirty e i := by
  rw [reqs_dirtyActs] at hr
  split at hr
  · simp at hr
  · rename_i hd
    refine ⟨by simpa using hd, ?_⟩
    split at hr
    · exact (C30_covers ⟨.copy, e.start, e.length⟩ i).1 ⟨r, hr, hri⟩
    · exact (C30_covers ⟨.zero, e.start, e.length⟩ i).1 ⟨r, hr, hri⟩

/-- An incremental copy that returned has copied every byte of a dirty data extent, has zeroed every
byte of a dirty zero extent, and has not changed the bytes of a clean extent. -/
theorem C29_bytes {c : Cfg} (hc : CutOf c.cut) (hn : 0 < c.workers) {exts : List DirtyExtent}
    {size : Nat} (ht : Tiles 0 (exts.map fun e => (e.start, e.length)) size) {d : Nat → Byte} {s : Ex}
    (h : Ex.Reachable c (copyDirty exts) d s) (hd : s.main = .done none)
    {e : DirtyExtent} (he : e ∈ exts) {i : Nat} (hi : InDirty e i) :
    s.dst i = if e.dirty = false then d i else if e.zero = false then c.src i else 0 := by
  have hr : ∀ r, r ∈ reqs (copyDirty exts) ∧ r.covers i ↔ r ∈ reqs (dirtyActs e) ∧ r.covers i := by
    intro r
    unfold copyDirty
    rw [mem_reqs_flatMap]
    constructor
    · rintro ⟨⟨e', he', hr⟩, hri⟩
      have : e' = e := tiles_unique ht he' he (i := i) (dirty_covers hr hri).2 hi
      subst this
      exact ⟨hr, hri⟩
    · rintro ⟨hr, hri⟩; exact ⟨⟨e, he, hr⟩, hri⟩
  have hex : (∃ r ∈ reqs (copyDirty exts), r.covers i) ↔ ∃ r ∈ reqs (dirtyActs e), r.covers i :=
    exists_congr hr
  have key := fun op => final_byte (copyDirty_no_stop exts) (exact_of_cut hc) h hn hd i op
  by_cases hdd : e.dirty = false
  · rw [if_pos hdd]
    refine outside_byte (copyDirty_no_stop exts) (exact_of_cut hc) h i ?_
    intro r hr' hri
    have := (dirty_covers ((hr r).1 ⟨hr', hri⟩).1 hri).1
    rw [hdd] at this; simp at this
  · rw [if_neg hdd]
    by_cases hz : e.zero = false
    · rw [if_pos hz, key .copy, if_pos]
      · rw [hex, reqs_dirtyActs, if_neg hdd, if_pos hz]
        exact (C30_covers ⟨.copy, e.start, e.length⟩ i).2 hi
      · intro r hr' hri
        have := ((hr r).1 ⟨hr', hri⟩).1
        rw [reqs_dirtyActs, if_neg hdd, if_pos hz] at this
        exact split_op this
    · rw [if_neg hz, key .zero, if_pos]
      · rw [hex, reqs_dirtyActs, if_neg hdd, if_neg hz]
        exact (C30_covers ⟨.zero, e.start, e.length⟩ i).2 hi
      · intro r hr' hri
        have := ((hr r).1 ⟨hr', hri⟩).1
        rw [reqs_dirtyActs, if_neg hdd, if_neg hz] at this
        exact split_op this

/-- An incremental copy never changes a byte outside of the dirty extents, at no time and also when it
fails. -/
theorem C29_untouched {c : Cfg} (hc : CutOf c.cut) {exts : List DirtyExtent} {d : Nat → Byte} {s : Ex}
    (h : Ex.Reachable c (copyDirty exts) d s) (i : Nat)
    (hi : ∀ e ∈ exts, e.dirty = true → ¬ InDirty e i) : s.dst i = d i := by
  refine outside_byte (copyDirty_no_stop exts) (exact_of_cut hc) h i ?_
  intro r hr hri
  unfold copyDirty at hr
  rw [mem_reqs_flatMap] at hr
  obtain ⟨e, he, hr⟩ := hr
  have := dirty_covers hr hri
  exact hi e he this.1 this.2

/-- If the destination differs from the source only in dirty extents, and the zero extents are truthful,
then an incremental copy that returned makes them equal. -/
theorem C29_incremental {c : Cfg} (hc : CutOf c.cut) (hn : 0 < c.workers) {exts : List DirtyExtent}
    {size : Nat} (ht : Tiles 0 (exts.map fun e => (e.start, e.length)) size) {d : Nat → Byte} {s : Ex}
    (hclean : ∀ e ∈ exts, e.dirty = false → ∀ i, InDirty e i → d i = c.src i)
    (hzero : ∀ e ∈ exts, e.zero = true → ∀ i, InDirty e i → c.src i = 0)
    (h : Ex.Reachable c (copyDirty exts) d s) (hd : s.main = .done none) :
    ∀ i, i < size → s.dst i = c.src i := by
  intro i hi
  obtain ⟨e, he, hie⟩ := (tiles_mem ht).1 ⟨Nat.zero_le i, hi⟩
  rw [C29_bytes hc hn ht h hd he hie]
  split
  · rename_i hdd; exact hclean e he hdd i hie
  · split
    · rfl
    · rename_i hz; exact (hzero e he (by simpa using hz) i hie).symm

/-! ## C33 -/

/-- The requests of a copy. -/
def IsCopy (acts : List Act) : Prop :=
  (∃ zero hole exts, acts = copyData zero hole exts) ∨ ∃ exts, acts = copyDirty exts

theorem IsCopy.no_stop {acts : List Act} (h : IsCopy acts) : ∀ r ∈ reqs acts, r.op ≠ .stop := by
  rcases h with ⟨z, hl, exts, rfl⟩ | ⟨exts, rfl⟩
  · exact copyData_no_stop z hl exts
  · exact copyDirty_no_stop exts

/-- `copy` raises or returns only when all the workers have exited, and then nothing runs. -/
theorem C33_joined {c : Cfg} {acts : List Act} (ha : IsCopy acts) {d : Nat → Byte} {s : Ex}
    (h : Ex.Reachable c acts d s) {e : Option Err} (hd : s.main = .done e) :
    (∀ k, k < c.workers → (s.w k).pc = .finished) ∧ ∀ s', ¬ Ex.Step c s s' := by
  have hf := (einv ha.no_stop h).doneFin e hd
  refine ⟨hf, ?_⟩
  intro s' hs
  cases hs <;> simp_all

/-- Once a worker has failed, the copy can only end with an error. -/
theorem C33_failed {c : Cfg} {acts : List Act} (ha : IsCopy acts) {d : Nat → Byte} {s s' : Ex}
    (h : Ex.Reachable c acts d s) (hf : ∃ k, k < c.workers ∧ (s.w k).pc = .failing)
    (hs : Relation.ReflTransGen (Ex.Step c) s s') {e : Option Err} (hd : s'.main = .done e) :
    e ≠ none := by
  obtain ⟨k, hk, hp⟩ := hf
  have he := (einv ha.no_stop h).failErr k hk hp
  have : Ex.Reachable c acts d s' ∧ s'.errors ≠ [] := by
    clear hd
    induction hs with
    | refl => exact ⟨h, he⟩
    | tail _ hstep ih => exact ⟨ih.1.step hstep, fun h' => ih.2 ((step_mono (qinv ih.1) hstep).1 h')⟩
  exact ((einv ha.no_stop this.1).doneRes e hd).2 this.2

/-- A failure closes the queue, so that the others stop: while the queue is open after a failure, the
failed worker is still going to close it. -/
theorem C33_closes {c : Cfg} {acts : List Act} (ha : IsCopy acts) {d : Nat → Byte} {s : Ex}
    (h : Ex.Reachable c acts d s) (he : s.errors ≠ []) :
    s.q.closed = true ∨ ∃ k, k < c.workers ∧ (s.w k).pc = .failing :=
  (einv ha.no_stop h).errFail he

/-- If `copy` returned, no worker failed, every request was executed exactly once, all the storage calls
of every request were done exactly once, and every worker has flushed its destination after its last
write. -/
theorem C33_success {c : Cfg} (hn : 0 < c.workers) {acts : List Act} (ha : IsCopy acts)
    {d : Nat → Byte} {s : Ex} (h : Ex.Reachable c acts d s) (hd : s.main = .done none) :
    s.errors = [] ∧ (s.handled.map Prod.snd).Perm (reqs acts) ∧
    s.calls.Perm ((reqs acts).flatMap c.cut) ∧
    ∀ k, k < c.workers → (s.w k).stopped = true ∧ (s.w k).dirty = false := by
  have f := final ha.no_stop h hn hd
  exact ⟨f.errors, handled_perm ha.no_stop h hn hd, calls_perm ha.no_stop h hn hd,
    fun k hk => (f.finished k hk).2⟩

/-- A copy with at most as many workers as the depth of the queue never blocks forever: until it has
raised or returned, some thread can run. -/
theorem C33_no_deadlock {c : Cfg} (hn : 0 < c.workers) (hdepth : c.workers ≤ c.depth)
    {acts : List Act} (ha : IsCopy acts) {d : Nat → Byte} {s : Ex} (h : Ex.Reachable c acts d s)
    (hs : ∀ e, s.main ≠ .done e) : ∃ s', Ex.Step c s s' :=
  no_deadlock ha.no_stop h hn hdepth hs

/-- `n` steps. -/
inductive Steps (c : Cfg) : Nat → Ex → Ex → Prop
  | refl (s : Ex) : Steps c 0 s s
  | step {n : Nat} {s s1 s2 : Ex} (h : Steps c n s s1) (hs : Ex.Step c s1 s2) : Steps c (n + 1) s s2

/-- Every execution is finite: the number of steps is bounded by the requests and the workers. -/
theorem C33_terminates {c : Cfg} {acts : List Act} {d : Nat → Byte} {s : Ex} {n : Nat}
    (h : Steps c n (.init c acts d) s) : n ≤ cost c (.init c acts d) := by
  have : ∀ {n s0 s}, Steps c n s0 s → s0 = .init c acts d →
      Ex.Reachable c acts d s ∧ n + cost c s ≤ cost c (.init c acts d) := by
    intro n s0 s h h0
    subst h0
    generalize hi : Ex.init c acts d = s0 at h
    induction h with
    | refl => subst hi; exact ⟨.init, by omega⟩
    | step h hs ih =>
      have ih := ih hi
      have hr := ih.1.step hs
      have := cost_step (qinv ih.1) (qinv hr) hs
      exact ⟨hr, by omega⟩
  have := (this h rfl).2
  omega

/-- So every execution that is continued as long as possible ends, with a result. -/
theorem C33_ends {c : Cfg} (hn : 0 < c.workers) (hdepth : c.workers ≤ c.depth)
    {acts : List Act} (ha : IsCopy acts) {d : Nat → Byte} {s : Ex} (h : Ex.Reachable c acts d s) :
    ∃ s' e, Relation.ReflTransGen (Ex.Step c) s s' ∧ s'.main = .done e := by
  generalize hk : cost c s = k
  induction k using Nat.strongRecOn generalizing s with
  | _ k ih =>
    by_cases hs : ∀ e, s.main ≠ .done e
    · obtain ⟨s1, h1⟩ := C33_no_deadlock hn hdepth ha h hs
      have hr := h.step h1
      have hlt := cost_step (qinv h) (qinv hr) h1
      obtain ⟨s', e, h2, h3⟩ := ih (cost c s1) (by omega) hr rfl
      exact ⟨s', e, Relation.ReflTransGen.head h1 h2, h3⟩
    · rw [Classical.not_forall] at hs
      obtain ⟨e, he⟩ := hs
      exact ⟨s, e, .refl, Classical.not_not.1 he⟩

/-! ## C34 -/

theorem sum_acts_flatMap {β : Type} (l : List β) (f : β → List Act) (g : Act → Nat) (len : β → Nat)
    (h : ∀ e ∈ l, ((f e).map g).sum = len e) : ((l.flatMap f).map g).sum = (l.map len).sum := by
  induction l with
  | nil => rfl
  | cons a as ih =>
    simp only [List.flatMap_cons, List.map_append, List.sum_append, List.map_cons, List.sum_cons]
    rw [h a (by simp), ih (fun e he => h e (by simp [he]))]

theorem sum_splitFrom (op : ReqOp) (step start length : Nat) :
    ((splitFrom op step start length).map Req.length).sum = length := by
  induction length using Nat.strongRecOn generalizing start with
  | _ length ih =>
    rw [splitFrom]
    by_cases h : 0 < step ∧ step < length
    · rw [dif_pos h, List.map_cons, List.sum_cons, ih _ (by omega)]; simp only; omega
    · rw [dif_neg h]; simp

theorem sum_submit (c : Cfg) (r : Req) (hr : r.op ≠ .stop) :
    ((submit r).map (progressWeights c).act).sum = r.length := by
  have h1 : (submit r).map (progressWeights c).act = (split r).map Req.length := by
    simp only [submit, List.map_map]
    refine List.map_congr_left ?_
    intro x hx
    have : x.op ≠ .stop := by rw [split_op hx]; exact hr
    simp [progressWeights, this]
  rw [h1]
  exact sum_splitFrom _ _ _ _

theorem sum_dataActs (c : Cfg) (zero hole : Bool) (e : ZeroExtent) :
    ((dataActs zero hole e).map (progressWeights c).act).sum = e.length := by
  unfold dataActs
  split
  · exact sum_submit c _ (by simp)
  · split
    · exact sum_submit c _ (by simp)
    · simp [progressWeights]

theorem sum_dirtyActs (c : Cfg) (e : DirtyExtent) :
    ((dirtyActs e).map (progressWeights c).act).sum = e.length := by
  unfold dirtyActs
  split
  · split
    · exact sum_submit c _ (by simp)
    · exact sum_submit c _ (by simp)
  · simp [progressWeights]

theorem sum_tiles {β : Type} {l : List β} {f g : β → Nat} {s e : Nat}
    (h : Tiles s (l.map fun x => (f x, g x)) e) : s + (l.map g).sum = e := by
  generalize hm : (l.map fun x => (f x, g x)) = m at h
  induction h generalizing l with
  | nil => rw [List.map_eq_nil_iff] at hm; subst hm; simp
  | cons hlen h ih =>
    rw [List.map_eq_cons_iff] at hm
    obtain ⟨x, xs, rfl, hx, hxs⟩ := hm
    simp only [Prod.mk.injEq] at hx
    have := ih hxs
    simp only [List.map_cons, List.sum_cons]
    omega

/-- The progress of a copy that returned is the size of the image, for all options. -/
theorem C34_copy {c : Cfg} (hn : 0 < c.workers) {zero hole : Bool}
    {exts : List ZeroExtent} {size : Nat} (ht : Complete exts size) {d : Nat → Byte} {s : Ex}
    (h : Ex.Reachable c (copyData zero hole exts) d s) (hd : s.main = .done none) :
    s.progress = size := by
  have := (progressWeights c).final (copyData_no_stop zero hole exts) h hn hd
  unfold copyData at this
  rw [sum_acts_flatMap exts _ _ ZeroExtent.length (fun e _ => sum_dataActs c zero hole e)] at this
  have hs := sum_tiles ht
  simp only [progressWeights] at this
  rw [this]
  omega

/-- The progress of an incremental copy that returned is the size of the image. -/
theorem C34_dirty {c : Cfg} (hn : 0 < c.workers) {exts : List DirtyExtent} {size : Nat}
    (ht : Tiles 0 (exts.map fun e => (e.start, e.length)) size) {d : Nat → Byte} {s : Ex}
    (h : Ex.Reachable c (copyDirty exts) d s) (hd : s.main = .done none) : s.progress = size := by
  have := (progressWeights c).final (copyDirty_no_stop exts) h hn hd
  unfold copyDirty at this
  rw [sum_acts_flatMap exts _ _ DirtyExtent.length (fun e _ => sum_dirtyActs c e)] at this
  have hs := sum_tiles ht
  simp only [progressWeights] at this
  rw [this]
  omega

/-- The progress is never more than the size of the image, also when the copy fails. -/
theorem C34_bound {c : Cfg} {zero hole : Bool}
    {exts : List ZeroExtent} {size : Nat} (ht : Complete exts size) {d : Nat → Byte} {s : Ex}
    (h : Ex.Reachable c (copyData zero hole exts) d s) : s.progress ≤ size := by
  have := ((progressWeights c).conserved h).1
  rw [Weights.total_init] at this
  unfold copyData at this
  rw [sum_acts_flatMap exts _ _ ZeroExtent.length (fun e _ => sum_dataActs c zero hole e)] at this
  have hs := sum_tiles ht
  simp only [Weights.total, progressWeights] at this
  omega

theorem C34_bound_dirty {c : Cfg} {exts : List DirtyExtent} {size : Nat}
    (ht : Tiles 0 (exts.map fun e => (e.start, e.length)) size) {d : Nat → Byte} {s : Ex}
    (h : Ex.Reachable c (copyDirty exts) d s) : s.progress ≤ size := by
  have := ((progressWeights c).conserved h).1
  rw [Weights.total_init] at this
  unfold copyDirty at this
  rw [sum_acts_flatMap exts _ _ DirtyExtent.length (fun e _ => sum_dirtyActs c e)] at this
  have hs := sum_tiles ht
  simp only [Weights.total, progressWeights] at this
  omega

/-- The progress never decreases. -/
theorem C34_monotone {c : Cfg} {s s' : Ex} (hs : Ex.Step c s s') : s.progress ≤ s'.progress := by
  cases hs <;> simp [Ex.setW]

/-! ## Examples -/

/-- A source with data in the bytes 0-3 and 8-9. -/
def exSrc : Nat → Byte := fun i => if i < 4 then 7 else if 8 ≤ i ∧ i < 10 then 9 else 0

def exExts : List ZeroExtent :=
  [⟨0, 4, false, some false⟩, ⟨4, 4, true, some true⟩, ⟨8, 2, false, some false⟩]

def exCfg : Cfg := ⟨2, 32, cutGeneric 3, exSrc⟩

example : Complete exExts 10 :=
  .cons (by decide) (.cons (by decide) (.cons (by decide) (.nil _)))

example : Truthful exExts exCfg.src := by
  intro e he hz i hi
  simp only [exExts, List.mem_cons, List.not_mem_nil, or_false] at he
  rcases he with rfl | rfl | rfl <;> simp only [InExt, Bool.false_eq_true] at hz hi
  simp only [exCfg, exSrc]
  rw [if_neg (by omega), if_neg (by omega)]

/-- All threads run in turn: both workers execute requests, the copy returns, the hole was skipped, and
the rest was copied. -/
example : ∃ s, Ex.Reachable exCfg (copyData true false exExts) (fun _ => 5) s ∧
    (s.main = .done none ∧ s.progress = 10 ∧ (s.handled.map Prod.fst) = [0, 1] ∧
      (List.range 12).map s.dst = [7, 7, 7, 7, 5, 5, 5, 5, 9, 9, 5, 5]) := by
  obtain ⟨s, hr, hs⟩ := execAll_exists (c := exCfg) (acts := copyData true false exExts)
    (d := fun _ => 5) (List.replicate 40 [0, 1, 2]).flatten
    (fun s => decide (s.main = .done none ∧ s.progress = 10 ∧ (s.handled.map Prod.fst) = [0, 1] ∧
      (List.range 12).map s.dst = [7, 7, 7, 7, 5, 5, 5, 5, 9, 9, 5, 5])) (by decide +kernel)
  exact ⟨s, hr, of_decide_eq_true hs⟩

def exDirty : List DirtyExtent := [⟨0, 2, false, false⟩, ⟨2, 6, true, false⟩, ⟨8, 2, true, true⟩]

/-- An incremental copy that returns. -/
example : ∃ s, Ex.Reachable exCfg (copyDirty exDirty) (fun _ => 5) s ∧
    (s.main = .done none ∧ s.progress = 10 ∧
      (List.range 12).map s.dst = [5, 5, 7, 7, 0, 0, 0, 0, 0, 0, 5, 5]) := by
  obtain ⟨s, hr, hs⟩ := execAll_exists (c := exCfg) (acts := copyDirty exDirty)
    (d := fun _ => 5) (List.replicate 40 [2, 1, 0]).flatten
    (fun s => decide (s.main = .done none ∧ s.progress = 10 ∧
      (List.range 12).map s.dst = [5, 5, 7, 7, 0, 0, 0, 0, 0, 0, 5, 5])) (by decide +kernel)
  exact ⟨s, hr, of_decide_eq_true hs⟩

/-- A worker that cannot connect fails, and the copy raises its error. -/
example : ∃ s s', Ex.Reachable exCfg (copyDirty exDirty) (fun _ => 5) s ∧ (s.w 0).pc = .failing ∧
    Relation.ReflTransGen (Ex.Step exCfg) s s' ∧ s'.main = .done (some (.os "ECONNREFUSED")) := by
  let s0 : Ex := .init exCfg (copyDirty exDirty) (fun _ => 5)
  let s1 : Ex := { s0.setW 0 { s0.w 0 with pc := .failing } with errors := [.os "ECONNREFUSED"] }
  have h1 : Ex.Step exCfg s0 s1 := .startFail (by decide) rfl
  have hP : ((s1.execAll exCfg (List.replicate 40 [1, 0, 2]).flatten).main =
      .done (some (.os "ECONNREFUSED"))) := by decide +kernel
  exact ⟨s1, _, .step .init h1, rfl, execAll_steps, hP⟩

/-! ## C32 for the copy -/

/-- With 33 workers and the queue depth 32 of the executor, a copy can block forever: all the workers
sleep in `get`, the queue is empty, and the main thread sleeps in `put`. -/
theorem C32_executor_counterexample :
    ∃ (c : Cfg) (acts : List Act) (s : Ex), c.workers = 33 ∧ c.depth = 32 ∧ IsCopy acts ∧
      Ex.Reachable c acts (fun _ => 0) s ∧ (∀ e, s.main ≠ .done e) ∧ ∀ s', ¬ Ex.Step c s s' := by
  let c : Cfg := ⟨33, 32, cutWhole, fun _ => 1⟩
  let exts : List ZeroExtent := (List.range 40).map fun i => ⟨i, 1, false, none⟩
  let ws : List Nat := (List.range 33).map (· + 1)
  let sched : List Nat :=
    -- all the workers start and wait
    ws ++ ws ++
    -- the main thread fills the queue, wakes 32 workers, and waits after worker 32
    List.replicate 33 0 ++
    -- the first worker takes an item: the notification for the main thread wakes worker 32
    [1] ++ (List.range 31).map (· + 2) ++
    -- worker 32 finds the queue empty, and the others return from their requests
    [33] ++ ws ++ ws ++ ws
  obtain ⟨s, hr, hs⟩ := execAll_exists (c := c) (acts := copyData true true exts)
    (d := fun _ => 0) sched
    (fun s => decide (s.main.next ≠ none ∧ 0 ∈ s.q.waiters ∧
      ∀ k, k < 33 → (s.w k).pc = .getting ∧ k + 1 ∈ s.q.waiters)) (by decide +kernel)
  obtain ⟨hm, h0, hw⟩ := of_decide_eq_true hs
  refine ⟨c, _, s, rfl, rfl, .inl ⟨true, true, exts, rfl⟩, hr, ?_, ?_⟩
  · intro e he; rw [he] at hm; simp [Main.next] at hm
  · intro s' hs'
    cases hs' with
    | skip h => rw [h] at hm; simp [Main.next] at hm
    | putDone _ hw' => exact hw' h0
    | putBlocked _ hw' => exact hw' h0
    | putRaised _ hw' => exact hw' h0
    | submitDone h => rw [h] at hm; simp [Main.next] at hm
    | mainFail _ hw' => exact hw' h0
    | stopPut _ hw' => exact hw' h0
    | stopBlocked _ hw' => exact hw' h0
    | stopRaised _ hw' => exact hw' h0
    | stopDone h => rw [h] at hm; simp [Main.next] at hm
    | joined h => rw [h] at hm; simp [Main.next] at hm
    | getDone hk _ hw' => exact hw' (hw _ hk).2
    | getStop hk _ hw' => exact hw' (hw _ hk).2
    | getBlocked hk _ hw' => exact hw' (hw _ hk).2
    | getRaised hk _ hw' => exact hw' (hw _ hk).2
    | started hk h | startFail hk h | call hk h | callFail hk h | workDone hk h | workFail hk h
    | flushed hk h | flushFail hk h | left hk h | leaveFail hk h | close hk h =>
      rw [(hw _ hk).1] at h; simp at h

end Imageio.Props
