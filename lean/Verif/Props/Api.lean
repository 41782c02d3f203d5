import Verif.Model.Api
import Verif.Props.ClientIo
/-!
C55: what uploads and downloads do, for all options.
-/
namespace Imageio.Props
open Imageio.Extents Imageio.Io Imageio.Spec Imageio.Api

/-- The number of workers of the copy is always positive. -/
theorem copyWorkers_pos (n : Int) : 0 < copyWorkers n := by unfold copyWorkers; omega

/-- A copy that returned: the workers as in `_api.py`, any schedule. -/
structure Copied (maxWorkers : Int) (acts : List Act) (src before after : Nat → Byte) : Prop where
  run : ∃ (c : Cfg) (s : Ex), CutOf c.cut ∧ c.workers = copyWorkers maxWorkers ∧ c.src = src ∧
    Ex.Reachable c acts before s ∧ s.main = .done none ∧ s.dst = after

/-! ## Uploads -/

/-- An upload of an image with its backing chain makes the disk equal to what a guest reads from the
image, whatever was on the disk; if the disk is known to be zero, zeroes are not sent. -/
theorem C55_upload {n : Int} {diskIsZero : Bool} {exts : List ZeroExtent} {size : Nat} {src before after : Nat → Byte}
    (ht : Complete exts size) (hz : Truthful exts src) (h0 : diskIsZero = true → ∀ i, before i = 0)
    (h : Copied n (uploadActs true diskIsZero exts) src before after) : ∀ i, i < size → after i = src i := by
  obtain ⟨c, s, hc, hw, rfl, hr, hd, rfl⟩ := h.run
  have hn : 0 < c.workers := hw ▸ copyWorkers_pos n
  cases diskIsZero with
  | true => exact C28_empty_destination hc hn ht hz (fun i _ => h0 rfl i) hr hd
  | false => exact C28_copy hc hn ht hz hr hd

/-- The extents of one layer without its backing files: exactly the bytes that are not allocated in
the layer are in holes. -/
def LayerExtents (exts : List ZeroExtent) (top : Layer) : Prop :=
  ∀ e ∈ exts, ∀ i, InExt e i → (top i = none ↔ e.zero = true ∧ e.hole = some true)

/-- An upload without the backing chain to an empty snapshot: the guest reads the uploaded layer on top
of the chain of the disk.  `diskIsZero` does not matter. -/
theorem C55_snapshot {n : Int} {diskIsZero : Bool} {exts : List ZeroExtent} {size : Nat} {top : Layer}
    {chain : List Layer} {after : Nat → Byte} (ht : Complete exts size) (hz : Truthful exts (visible [top]))
    (hl : LayerExtents exts top)
    (h : Copied n (uploadActs false diskIsZero exts) (visible [top]) (visible chain) after) :
    ∀ i, i < size → after i = visible (top :: chain) i := by
  obtain ⟨c, s, hc, hw, hs, hr, hd, rfl⟩ := h.run
  have hn : 0 < c.workers := hw ▸ copyWorkers_pos n
  intro i hi
  obtain ⟨e, he, hie⟩ := (tiles_mem ht).1 ⟨Nat.zero_le i, hi⟩
  have hacts : uploadActs false diskIsZero exts = copyData true false exts := by
    unfold uploadActs; cases diskIsZero <;> rfl
  rw [hacts] at hr
  rw [C28_holes hc hn ht (hs ▸ hz) hr hd he hie, hs]
  by_cases hh : e.zero = true ∧ e.hole = some true
  · rw [if_pos hh, visible, (hl e he i hie).2 hh, Option.getD_none]
  · rw [if_neg hh]
    cases ht' : top i with
    | none => exact absurd ((hl e he i hie).1 ht') hh
    | some b => simp [visible, ht']

/-- So a disk with the same chain shows the same as the uploaded image. -/
theorem C55_snapshot_same {n : Int} {diskIsZero : Bool} {exts : List ZeroExtent} {size : Nat} {top : Layer}
    {chain chain' : List Layer} {after : Nat → Byte} (ht : Complete exts size)
    (hz : Truthful exts (visible [top])) (hl : LayerExtents exts top)
    (hsame : ∀ i, i < size → visible chain i = visible chain' i)
    (h : Copied n (uploadActs false diskIsZero exts) (visible [top]) (visible chain) after) :
    ∀ i, i < size → after i = visible (top :: chain') i := by
  intro i hi
  rw [C55_snapshot ht hz hl h i hi, visible, visible, hsame i hi]

/-- Zeroes are skipped only if the new disk is zero: for every image, all arguments of the command, and
every kind of storage, `upload-disk` makes the disk equal to the image. -/
theorem C55_upload_disk {info : ImageInfo} {file : Bytes} {args : UploadArgs} {required : Nat} {di : DiskInfo}
    (hp : prepare info file args required = .ok di) {st : Storage} (hc : Creatable st di.format di.sparse)
    {n : Int} {exts : List ZeroExtent} {src before after : Nat → Byte} (hb : NewDisk st di.format before)
    (ht : Complete exts di.provisionedSize) (hz : Truthful exts src)
    (h : Copied n (uploadActs true di.isZero exts) src before after) :
    ∀ i, i < info.virtualSize → after i = src i := by
  unfold prepare at hp
  split at hp
  · simp at hp
  · simp only [Except.ok.injEq] at hp
    subst hp
    simp only at hc hb ht h
    refine C55_upload ht hz (fun hzero i => hb ?_ i) h
    unfold Creatable at hc
    generalize (if isIso file info.format = true then Format.raw else args.format) = f at *
    generalize (if isIso file info.format = true then false else args.sparse) = sp at *
    cases st <;> cases f <;> cases sp <;> simp_all

/-- The content of the file decides whether it is an ISO image. -/
theorem C55_iso (file : Bytes) (format : String) : isIso file format = true ↔
    format = "raw" ∧ ∃ p q, file = p ++ ([0x01, 0x43, 0x44, 0x30, 0x30, 0x31, 0x01, 0x00] ++ q) ∧ p.length = 0x8000 := by
  unfold isIso
  by_cases hf : format = "raw"
  · rw [if_pos hf, beq_iff_eq]
    constructor
    · intro h
      refine ⟨hf, file.take 0x8000, (file.drop 0x8000).drop 8, ?_, ?_⟩
      · rw [← h, List.take_append_drop, List.take_append_drop]
      · have := congrArg List.length h
        simp only [List.length_take, List.length_drop, List.length_cons, List.length_nil] at this ⊢
        omega
    · rintro ⟨-, p, q, rfl, hp⟩
      rw [← hp, List.drop_left]
      rfl
  · rw [if_neg hf]
    simp [hf]

/-- ISO images are raw and preallocated, data disks are what the user asked for. -/
theorem C55_prepare {info : ImageInfo} {file : Bytes} {args : UploadArgs} {required : Nat} {di : DiskInfo}
    (hp : prepare info file args required = .ok di) :
    (info.format = "raw" ∨ info.format = "qcow2") ∧ di.provisionedSize = info.virtualSize ∧
    (di.contentType = .iso ↔ isIso file info.format = true) ∧
    (di.contentType = .iso → di.format = .raw ∧ di.sparse = false) ∧
    (di.contentType = .data → di.format = args.format ∧ di.sparse = args.sparse) ∧
    (di.initialSize = some required ↔ di.format = .qcow2 ∧ di.sparse = true) := by
  unfold prepare at hp
  split at hp
  · simp at hp
  · rename_i hf
    simp only [Except.ok.injEq] at hp
    subst hp
    simp only
    generalize isIso file info.format = b
    cases b <;> simp <;> (by_cases h : info.format = "raw" <;> simp_all)

/-! ## Downloads -/

/-- A download to a new image without a backing file has the content of the disk. -/
theorem C55_download {n : Int} {exts : List ZeroExtent} {dirty : List DirtyExtent} {size : Nat}
    {src after : Nat → Byte} (ht : Complete exts size) (hz : Truthful exts src)
    (h : Copied n (downloadActs false false exts dirty) src (visible []) after) :
    ∀ i, i < size → after i = src i := by
  obtain ⟨c, s, hc, hw, rfl, hr, hd, rfl⟩ := h.run
  exact C28_empty_destination hc (hw ▸ copyWorkers_pos n) ht hz (fun i _ => rfl) hr hd

/-- A download of one layer to a new image with a backing file: the layer on top of the backing file. -/
theorem C55_download_layer {n : Int} {exts : List ZeroExtent} {dirty : List DirtyExtent} {size : Nat} {top : Layer}
    {chain : List Layer} {after : Nat → Byte} (ht : Complete exts size) (hz : Truthful exts (visible [top]))
    (hl : LayerExtents exts top)
    (h : Copied n (downloadActs false true exts dirty) (visible [top]) (visible chain) after) :
    ∀ i, i < size → after i = visible (top :: chain) i :=
  C55_snapshot (diskIsZero := false) ht hz hl h

/-- An incremental download to a new image on top of the previous backup: if the previous backup has the
content of the disk in the clean extents, the new image has the content of the disk. -/
theorem C55_download_incremental {n : Int} {backingFile : Bool} {exts : List ZeroExtent} {dirty : List DirtyExtent}
    {size : Nat} {src after : Nat → Byte} {backup : List Layer}
    (ht : Tiles 0 (dirty.map fun e => (e.start, e.length)) size)
    (hclean : ∀ e ∈ dirty, e.dirty = false → ∀ i, InDirty e i → visible backup i = src i)
    (hzero : ∀ e ∈ dirty, e.zero = true → ∀ i, InDirty e i → src i = 0)
    (h : Copied n (downloadActs true backingFile exts dirty) src (visible backup) after) :
    ∀ i, i < size → after i = src i := by
  obtain ⟨c, s, hc, hw, rfl, hr, hd, rfl⟩ := h.run
  exact C29_incremental hc (hw ▸ copyWorkers_pos n) ht hclean hzero hr hd

/-- An incremental download needs a format with backing files. -/
theorem C55_download_format (fmt : Format) (incremental : Bool) :
    downloadAllowed fmt incremental = true ↔ (incremental = true → fmt = .qcow2) := by
  cases fmt <;> cases incremental <;> decide

/-! ## Connections -/

/-- The connections of an upload: never more writers than the server allows, and exactly as many readers
as the local `qemu-nbd` accepts. -/
theorem C55_upload_connections {allowed n : Int} (ha : 1 ≤ allowed) (hn : 1 ≤ n) :
    (dstConnections (limitWorkers allowed n) : Int) ≤ allowed ∧
    (srcConnections (limitWorkers allowed n) : Int) = uploadShared (limitWorkers allowed n) := by
  unfold dstConnections srcConnections uploadShared copyWorkers limitWorkers
  omega

/-- The connections of a download: exactly as many writers as the local `qemu-nbd` accepts, and one
reader more than workers. -/
theorem C55_download_connections {allowed n : Int} (ha : 1 ≤ allowed) (hn : 1 ≤ n) :
    (dstConnections (limitWorkers allowed n) : Int) = downloadShared (limitWorkers allowed n) ∧
    (srcConnections (limitWorkers allowed n) : Int) ≤ allowed + 1 := by
  unfold dstConnections srcConnections downloadShared copyWorkers limitWorkers
  omega

/-- A download with as many workers as the server allows readers opens one connection too many. -/
theorem C55_counterexample_readers : ∃ allowed n : Int, 1 ≤ allowed ∧ 1 ≤ n ∧
    allowed < (srcConnections (limitWorkers allowed n) : Int) :=
  ⟨8, 8, by decide, by decide, by decide⟩

/-- The proxy is used only when the host cannot be reached, and never when it answered with an error. -/
theorem C55_proxy {t p : Except Err Unit} {url : String} {proxy : Option String} {used : String} :
    openHttp t p url proxy = .ok used ↔
      t = .ok () ∧ used = url ∨ (∃ n, t = .error (.os n)) ∧ p = .ok () ∧ proxy = some used := by
  unfold openHttp
  match t with
  | .ok () => simp [eq_comm]
  | .error e =>
    cases e <;> cases proxy <;> cases p <;> simp [Except.map, eq_comm]

/-! ## Examples -/

/-- An upload of `exSrc` to a disk with old data. -/
theorem exCopied (zero hole : Bool) (d : Byte) (out : List Byte)
    (he : (fun s : Ex => decide (s.main = .done none ∧ (List.range 10).map s.dst = out))
      ((Ex.init exCfg (copyData zero hole exExts) (fun _ => d)).execAll exCfg (List.replicate 40 [0, 1, 2]).flatten) = true) :
    ∃ after, Copied 2 (copyData zero hole exExts) exSrc (fun _ => d) after ∧ (List.range 10).map after = out := by
  obtain ⟨s, hr, hs⟩ := execAll_exists (c := exCfg) (acts := copyData zero hole exExts) (d := fun _ => d)
    (List.replicate 40 [0, 1, 2]).flatten
    (fun s => decide (s.main = .done none ∧ (List.range 10).map s.dst = out)) he
  have := of_decide_eq_true hs
  exact ⟨s.dst, ⟨exCfg, s, .inl ⟨3, by decide, rfl⟩, rfl, rfl, hr, this.1, rfl⟩, this.2⟩

/-- The whole image is uploaded: also the zeroes of the source replace the old data. -/
example : ∃ after, Copied 2 (uploadActs true false exExts) exSrc (fun _ => 5) after ∧
    (List.range 10).map after = [7, 7, 7, 7, 0, 0, 0, 0, 9, 9] :=
  exCopied true true 5 _ (by decide +kernel)

/-- The zeroes are skipped. -/
example : ∃ after, Copied 2 (uploadActs true true exExts) exSrc (fun _ => 0) after ∧
    (List.range 10).map after = [7, 7, 7, 7, 0, 0, 0, 0, 9, 9] :=
  exCopied false true 0 _ (by decide +kernel)

/-- A layer with a hole in the bytes 4-7. -/
def exTop : Layer := fun i => if 4 ≤ i ∧ i < 8 then none else some (exSrc i)

example : LayerExtents exExts exTop := by
  intro e he i hi
  simp only [exExts, List.mem_cons, List.not_mem_nil, or_false] at he
  rcases he with rfl | rfl | rfl <;> simp only [InExt] at hi <;> simp only [exTop]
  · rw [if_neg (by omega)]; simp
  · rw [if_pos (by omega)]; simp
  · rw [if_neg (by omega)]; simp

example : Truthful exExts (visible [exTop]) := by
  intro e he hz i hi
  simp only [exExts, List.mem_cons, List.not_mem_nil, or_false] at he
  rcases he with rfl | rfl | rfl <;> simp only [InExt, Bool.false_eq_true] at hz hi
  simp only [visible, exTop]
  rw [if_pos (by omega)]; rfl

/-- The hole shows the chain of the disk. -/
example : ∃ after, Copied 2 (uploadActs false true exExts) exSrc (fun _ => 5) after ∧
    (List.range 10).map after = [7, 7, 7, 7, 5, 5, 5, 5, 9, 9] :=
  exCopied true false 5 _ (by decide +kernel)

example : prepare ⟨"qcow2", 10⟩ [] ⟨.raw, false⟩ 7 = .ok ⟨none, 10, .data, .raw, false, false⟩ := by decide +kernel

example : prepare ⟨"raw", 10⟩ [] ⟨.qcow2, true⟩ 7 = .ok ⟨some 7, 10, .data, .qcow2, true, true⟩ := by decide +kernel

/-! ## Where the content differs -/

/-- A download of a disk with all its layers to an image with a backing file: holes are not zeroed, so
the image shows the backing file where the disk is zero. -/
theorem C55_counterexample_backing_file : ∃ (exts : List ZeroExtent) (size : Nat) (src before after : Nat → Byte),
    Complete exts size ∧ Truthful exts src ∧ Copied 2 (downloadActs false true exts []) src before after ∧
    ∃ i, i < size ∧ after i ≠ src i := by
  obtain ⟨after, h1, h2⟩ := exCopied true false 5 [7, 7, 7, 7, 5, 5, 5, 5, 9, 9] (by decide +kernel)
  refine ⟨exExts, 10, exSrc, fun _ => 5, after, .cons (by decide) (.cons (by decide) (.cons (by decide) (.nil _))), ?_, h1, 4, by decide, ?_⟩
  · intro e he hz i hi
    simp only [exExts, List.mem_cons, List.not_mem_nil, or_false] at he
    rcases he with rfl | rfl | rfl <;> simp only [InExt, Bool.false_eq_true] at hz hi
    simp only [exSrc]
    rw [if_neg (by omega), if_neg (by omega)]
  · have : after 4 = 5 := by
      have := congrArg (fun l => l[4]?) h2
      simpa using this
    rw [this]; decide

/-- A raw disk on block storage that is said to be sparse would keep old data in the zeroes: the rule of
the engine is needed. -/
theorem C55_counterexample_sparse : ∃ (info : ImageInfo) (args : UploadArgs) (di : DiskInfo) (exts : List ZeroExtent)
    (src before after : Nat → Byte), prepare info [] args 0 = .ok di ∧ NewDisk .block di.format before ∧
    Complete exts di.provisionedSize ∧ Truthful exts src ∧
    Copied 2 (uploadActs true di.isZero exts) src before after ∧ ∃ i, i < info.virtualSize ∧ after i ≠ src i := by
  obtain ⟨after, h1, h2⟩ := exCopied false true 5 [7, 7, 7, 7, 5, 5, 5, 5, 9, 9] (by decide +kernel)
  refine ⟨⟨"raw", 10⟩, ⟨.raw, true⟩, ⟨none, 10, .data, .raw, true, true⟩, exExts, exSrc, fun _ => 5, after, by decide +kernel, ?_,
    .cons (by decide) (.cons (by decide) (.cons (by decide) (.nil _))), ?_, h1, 4, by decide, ?_⟩
  · simp [NewDisk]
  · intro e he hz i hi
    simp only [exExts, List.mem_cons, List.not_mem_nil, or_false] at he
    rcases he with rfl | rfl | rfl <;> simp only [InExt, Bool.false_eq_true] at hz hi
    simp only [exSrc]
    rw [if_neg (by omega), if_neg (by omega)]
  · have : after 4 = 5 := by
      have := congrArg (fun l => l[4]?) h2
      simpa using this
    rw [this]; decide

end Imageio.Props
