import Verif.Model.GoMap
import Verif.Spec.GoMap
import Verif.Props.GoClient
/-!
C91: `ovirt-img map` in Go.
-/
namespace Imageio.Props
open Imageio.Spec Imageio.Spec.Go Imageio.GoMap Imageio.Http
open Imageio.GoClient (Truthful Replies nbdExtents values writeExtents ReadResult u64 GoErr Outcome)

/-! ## What is opened -/

theorem getopt_file {file : Str} (h : file.head? ≠ some '-') : getopt NeedsValue [file] = some ([], [file]) := by
  cases file with
  | nil => rfl
  | cons c r =>
    have hc : c ≠ '-' := fun e => h (by rw [e]; rfl)
    cases r with
    | nil =>
      unfold getopt
      split <;> simp_all [getopt]
    | cons d r =>
      unfold getopt
      split <;> simp_all [getopt]

/-- The arguments of qemu-nbd serve the file for reading, if its name does not begin with a dash. -/
theorem nbdArgs_serve (file fmt : Str) (h : file.head? ≠ some '-') : Serves (nbdArgs file fmt) file fmt := by
  refine ⟨rfl, [("read-only".toList, none), ("persistent".toList, none), ("shared".toList, some "8".toList),
    ("format".toList, some fmt)], ?_, by simp, by simp, by simp, by simp, fun f hf => ?_⟩
  · have := getopt_file h
    simp [nbdArgs, lit, getopt, NeedsValue, this]
  · simpa using hf

/-- qemu-img is asked for the information of the file, as JSON. -/
theorem infoArgs_asks (file : Str) (h : file.head? ≠ some '-') : Asks (infoArgs file) file := by
  refine ⟨rfl, ?_⟩
  have := getopt_file h
  simp [infoArgs, lit, getopt, NeedsValue, this]

/-- The backend is qemu-nbd that serves this file, only for reading, with the format that qemu-img reported for the same file. -/
def OpensFile (w : GoMap.World) (file : Str) (b : GoMap.Backend) : Prop :=
  ∃ ask out fmt n args size replies, Asks ask file ∧ w.output ask = some out ∧ w.unmarshal out = some (fmt, n) ∧
    Serves args file fmt ∧ w.libnbd (.program args) = some (size, replies) ∧ b = .nbd (.program args) size replies

theorem connectFile_opens {w : GoMap.World} {file : Str} {b : GoMap.Backend} (hd : file.head? ≠ some '-')
    (h : connectFile w file = some b) : OpensFile w file b := by
  unfold connectFile GoMap.format connectNbd at h
  cases ho : w.output (infoArgs file) with
  | none => simp [ho] at h
  | some out =>
    cases hu : w.unmarshal out with
    | none => simp [ho, hu] at h
    | some info =>
      cases hl : w.libnbd (.program (nbdArgs file info.1)) with
      | none => simp [ho, hu, hl] at h
      | some x =>
        simp only [ho, hu, hl, Option.some.injEq] at h
        exact ⟨_, out, info.1, info.2, _, x.1, x.2, infoArgs_asks file hd, ho, hu, nbdArgs_serve file info.1 hd, hl, h.symm⟩

/-- C91: what is opened for an argument.  If there is such a file, it is served by qemu-nbd, only for reading, with the format
that qemu-img reported; otherwise the argument is a URL, and its scheme decides.  Missing, and false: files whose name begins with
a dash (`C91_counterexample_dash`). -/
theorem C91_source_partial (w : GoMap.World) (s : Str) (b : GoMap.Backend) (h : connect w s = some b) :
    (w.stat s = .found ∧ (s.head? ≠ some '-' → OpensFile w s b)) ∨
    (w.stat s = .missing ∧ ∃ scheme path, w.parse s = some (scheme, path) ∧
      (((scheme = "nbd".toList ∨ scheme = "nbd+unix".toList) ∧
          ∃ size replies, w.libnbd (.uri s) = some (size, replies) ∧ b = .nbd (.uri s) size replies) ∨
        (scheme = "https".toList ∧ b = .http s) ∨
        (scheme = "file".toList ∧ (path.head? ≠ some '-' → OpensFile w path b)))) := by
  unfold connect at h
  cases hs : w.stat s with
  | failed => rw [hs] at h; cases h
  | found =>
    rw [hs] at h
    exact .inl ⟨rfl, fun hd => connectFile_opens hd h⟩
  | missing =>
    rw [hs] at h
    refine .inr ⟨rfl, ?_⟩
    simp only [connectUrl] at h
    cases hp : w.parse s with
    | none => rw [hp] at h; cases h
    | some x =>
      obtain ⟨scheme, path⟩ := x
      rw [hp] at h
      simp only at h
      refine ⟨scheme, path, rfl, ?_⟩
      split at h
      · rename_i hc
        unfold connectNbd at h
        cases hl : w.libnbd (.uri s) with
        | none => rw [hl] at h; cases h
        | some x => rw [hl] at h; exact .inl ⟨hc, x.1, x.2, rfl, (Option.some.inj h).symm⟩
      · split at h
        · rename_i hc
          exact .inr (.inl ⟨hc, (Option.some.inj h).symm⟩)
        · split at h
          · rename_i hc
            exact .inr (.inr ⟨hc, fun hd => connectFile_opens hd h⟩)
          · cases h

/-- C91: a file whose name begins with a dash is an option for qemu-img and qemu-nbd: whatever its format, no file is given. -/
theorem C91_counterexample_dash (fmt : Str) : ¬ Asks (infoArgs "-v.raw".toList) "-v.raw".toList ∧
    ¬ Serves (nbdArgs "-v.raw".toList fmt) "-v.raw".toList fmt ∧
    ∃ opts, getopt NeedsValue (nbdArgs "-v.raw".toList fmt).tail = some (opts, []) := by
  have h : ∃ opts, getopt NeedsValue (nbdArgs "-v.raw".toList fmt).tail = some (opts, []) := by
    simp [nbdArgs, lit, getopt, NeedsValue]
  refine ⟨fun ha => ?_, fun hs => ?_, h⟩
  · have := ha.options
    simp [infoArgs, lit, getopt, NeedsValue] at this
  · obtain ⟨opts, h⟩ := h
    obtain ⟨_, h', _⟩ := hs.options
    rw [h] at h'
    simp at h'

/-! ## What is printed -/

theorem parseFlags_left : ∀ (l : List Str) (p profile : Str) (left : List Str), parseFlags p l = .ok (profile, left) → left <:+ l := by
  intro l
  induction hn : l.length using Nat.strongRecOn generalizing l with
  | ind n ih =>
    intro p profile left h
    cases l with
    | nil => unfold parseFlags at h; cases h; exact List.suffix_refl _
    | cons s rest =>
      simp only [List.length_cons] at hn
      unfold parseFlags at h
      split at h
      · cases h; exact List.suffix_refl _
      · split at h
        · cases h; exact List.suffix_cons _ _
        · simp only at h
          generalize (if s.take 2 = lit "--" then s.drop 2 else s.drop 1) = text at h
          split at h
          · cases h
          · split at h
            · split at h <;> cases h
            · split at h
              · exact (ih _ (by omega) rest rfl _ _ _ h).trans (List.suffix_cons _ _)
              · split at h
                · cases h
                · rename_i v rest
                  simp only [List.length_cons] at hn
                  exact ((ih _ (by omega) rest rfl _ _ _ h).trans (List.suffix_cons _ _)).trans (List.suffix_cons _ _)

theorem parseFlags_error : ∀ (l : List Str) (p : Str) (st : Nat), parseFlags p l = .error st → ∃ a ∈ l, a.head? = some '-' := by
  intro l
  induction hn : l.length using Nat.strongRecOn generalizing l with
  | ind n ih =>
    intro p st h
    cases l with
    | nil => unfold parseFlags at h; cases h
    | cons s rest =>
      by_cases hs : s.head? = some '-'
      · exact ⟨s, by simp, hs⟩
      · unfold parseFlags at h
        rw [if_pos (.inr hs)] at h
        cases h

/-- The extents as triples. -/
def triples (exts : List GoClient.Extent) : List (Nat × Nat × Bool) := exts.map fun e => (e.start, e.length, e.zero)

/-- C91: if `ovirt-img map` ends with success, its last argument was opened, and what it printed is a JSON document that lists
exactly the extents of this backend (or it was asked for help, with an option).  If it fails it prints nothing.  Missing, and
false: when not everything can be written to stdout (`C91_counterexample_full`). -/
theorem C91_map_partial (w : GoMap.World) (args : List Str) (status : Nat) (out : Str) (hw : ∀ t, w.stdout t = t)
    (h : GoMap.main w args = .exit status out) :
    (status ≠ 0 → out = []) ∧
    (status = 0 → (out = [] ∧ ∃ a ∈ args, a.head? = some '-') ∨
      ∃ s b exts, args.head? = some "map".toList ∧ args.getLast? = some s ∧ 2 ≤ args.length ∧ connect w s = some b ∧
        extents w b = .done exts ∧ Document out (listing (triples exts))) := by
  unfold GoMap.main at h
  cases args with
  | nil => cases h; exact ⟨fun _ => rfl, fun h => by cases h⟩
  | cons name rest =>
    simp only at h
    split at h
    · cases h; exact ⟨fun _ => rfl, fun h => by cases h⟩
    · rename_i hm
      have hm : name = "map".toList := Classical.byContradiction hm
      cases hp : parseFlags [] rest with
      | error st =>
        rw [hp] at h
        cases h
        obtain ⟨a, ha, hd⟩ := parseFlags_error _ _ _ hp
        exact ⟨fun _ => rfl, fun _ => .inl ⟨rfl, a, by simp [ha], hd⟩⟩
      | ok x =>
        obtain ⟨profile, left⟩ := x
        rw [hp] at h
        simp only at h
        split at h
        · cases h; exact ⟨fun _ => rfl, fun h => by cases h⟩
        · split at h
          · rename_i s
            have hsuf := parseFlags_left _ _ _ _ hp
            unfold mapUrl at h
            cases hc : connect w s with
            | none => rw [hc] at h; cases h; exact ⟨fun _ => rfl, fun h => by cases h⟩
            | some b =>
              rw [hc] at h
              simp only at h
              cases he : extents w b with
              | error => rw [he] at h; cases h; exact ⟨fun _ => rfl, fun h => by cases h⟩
              | panic => rw [he] at h; cases h
              | waiting => rw [he] at h; cases h
              | done exts =>
                rw [he] at h
                simp only [Ended.exit.injEq] at h
                obtain ⟨rfl, rfl⟩ := h
                refine ⟨fun h => absurd rfl h, fun _ => .inr ⟨s, b, exts, by rw [hm]; rfl, ?_, ?_, hc, he, ?_⟩⟩
                · obtain ⟨pre, hpre⟩ := hsuf
                  rw [← hpre]
                  rw [← List.cons_append, List.getLast?_append]
                  rfl
                · have := hsuf.length_le
                  simp only [List.length_cons, List.length_nil] at this ⊢
                  omega
                · rw [hw]
                  have := C73_map exts
                  unfold listing triples
                  rw [List.map_map]
                  exact this
          · cases h; exact ⟨fun _ => rfl, fun h => by cases h⟩

/-- C91: an argument that is no option is mapped, if it can be opened and gives its extents. -/
theorem C91_succeeds (w : GoMap.World) (s : Str) (b : GoMap.Backend) (exts : List GoClient.Extent) (hd : s.head? ≠ some '-')
    (hc : connect w s = some b) (he : extents w b = .done exts) :
    GoMap.main w ["map".toList, s] = .exit 0 (w.stdout (writeExtents exts)) := by
  have hp : parseFlags [] [s] = .ok ([], [s]) := by
    unfold parseFlags
    rw [if_pos (.inr hd)]
  unfold GoMap.main
  simp only [hp, mapUrl, hc, he]
  rw [if_neg (fun h => h rfl), if_neg (by simp)]

/-- C91: the map of an image that is served with NBD, such as every file, says the truth: the extents that are printed follow each
other from the start to the end of the image, and the zero flag of an extent is that of all its bytes. -/
theorem C91_truth (w : GoMap.World) (s out : Str) (t : GoMap.Target) (size : Nat) (replies : Replies) {st : Nat → Nat}
    (hw : ∀ t, w.stdout t = t) (hd : s.head? ≠ some '-') (hc : connect w s = some (.nbd t size replies))
    (hr : ∀ f ∈ replies, Truthful st size f) (h : GoMap.main w ["map".toList, s] = .exit 0 out) :
    ∃ l, Document out (listing l) ∧ Tiles 0 size (l.map fun e => (e.1, e.2.1)) ∧
      ∀ e ∈ l, ∀ i, e.1 ≤ i → i < e.1 + e.2.1 → (e.2.2 = true ↔ st i &&& 2 = 2) := by
  have hp : parseFlags [] [s] = .ok ([], [s]) := by
    unfold parseFlags
    rw [if_pos (.inr hd)]
  unfold GoMap.main at h
  simp only [hp, mapUrl, hc, extents] at h
  rw [if_neg (fun h => h rfl), if_neg (by simp)] at h
  cases hn : nbdExtents size replies with
  | error => rw [hn] at h; cases h
  | panic => rw [hn] at h; cases h
  | waiting => rw [hn] at h; cases h
  | done r =>
    rw [hn] at h
    simp only [Ended.exit.injEq, true_and] at h
    rw [hw] at h
    obtain ⟨h1, h2, _⟩ := C73_extents replies hr hn
    refine ⟨triples (values 0 r), ?_, ?_, ?_⟩
    · rw [← h]
      have := C73_map (values 0 r)
      unfold listing triples
      rw [List.map_map]
      exact this
    · unfold triples
      rw [List.map_map]
      exact h1
    · intro e he i hi hj
      unfold triples at he
      obtain ⟨x, hx, rfl⟩ := List.mem_map.1 he
      exact h2 x hx i hi hj

/-- A world with one image on an imageio server: 8 bytes of data. -/
def mapWorld : GoMap.World where
  stat _ := .missing
  output _ := none
  unmarshal _ := none
  parse _ := some (lit "https", lit "/images/x")
  libnbd _ := none
  http _ := some [⟨0, 8, false⟩]
  create _ := true
  stdout t := t

/-- C91: errors of writing are not looked at: with a full disk nothing is printed, and the program ends with success. -/
theorem C91_counterexample_full : ∃ (w : GoMap.World) (args : List Str) (b : GoMap.Backend),
    connect w "https://h/images/x".toList = some b ∧ args = ["map".toList, "https://h/images/x".toList] ∧
    GoMap.main w args = .exit 0 [] :=
  ⟨{ mapWorld with stdout := fun _ => [] }, _, .http _, rfl, rfl, by decide +kernel⟩

/-- C91: a URL for which `os.Stat` fails with another error than `ENOENT` (such as `ENAMETOOLONG` for a long ticket id, or
`ENOTDIR` if there is a file `https:`) cannot be mapped, although the server would send its extents. -/
theorem C91_counterexample_stat (w : GoMap.World) (s : Str) (hs : w.stat s = .failed) (hd : s.head? ≠ some '-') :
    GoMap.main w ["map".toList, s] = .exit 1 [] := by
  have hp : parseFlags [] [s] = .ok ([], [s]) := by
    unfold parseFlags
    rw [if_pos (.inr hd)]
  unfold GoMap.main
  simp only [hp, mapUrl, connect, hs]
  rw [if_neg (fun h => h rfl), if_neg (by simp)]

/-! ## Reading -/

theorem u64_nat' {n : Nat} (h : n < 2 ^ 64) : u64 (n : Int) = n := by
  unfold u64
  omega

/-- C91: `ReadAt` of the NBD backend keeps the contract of `io.ReaderAt`, if the reads of libnbd that succeed give the bytes
of the image. -/
theorem C91_read_at (img : Nat → Byte) (size : Nat) (pread : Nat → Nat → Option Bytes) (len off : Nat)
    (hp : ∀ o n d, o + n ≤ size → pread o n = some d → d = load img o n) (hl : len < 2 ^ 63) (ho : off < 2 ^ 63) :
    ReaderAt img size off len (GoMap.readAt size pread len off).n (GoMap.readAt size pread len off).err.isSome
      ((GoMap.readAt size pread len off).err == some .eof) (GoMap.readAt size pread len off).data := by
  have h1 : u64 (off : Int) = off := u64_nat' (by omega)
  have h2 : u64 ((off : Int) + (len : Int)) = off + len := by rw [← Int.natCast_add]; exact u64_nat' (by omega)
  unfold GoMap.readAt
  simp only [h1, h2]
  by_cases hgt : size < off
  · rw [if_pos hgt]
    exact ⟨Nat.zero_le _, fun _ => rfl, by simp [load], by simp, fun _ => by simp only; omega⟩
  · rw [if_neg hgt]
    by_cases hlong : size < off + len
    · simp only [if_pos hlong]
      cases hd : pread off (size - off) with
      | none => exact ⟨Nat.zero_le _, fun _ => rfl, by simp [load], by simp, by simp⟩
      | some d =>
        have := hp _ _ _ (by omega) hd
        subst this
        exact ⟨by simp only; omega, fun _ => rfl, List.take_of_length_le (by simp [load]), fun _ => by simp only; omega, fun _ => by simp only; omega⟩
    · simp only [if_neg hlong]
      cases hd : pread off len with
      | none => exact ⟨Nat.zero_le _, fun _ => rfl, by simp [load], by simp, by simp⟩
      | some d =>
        have := hp _ _ _ (by omega) hd
        subst this
        exact ⟨Nat.le_refl _, fun h => absurd h (Nat.lt_irrefl _), List.take_of_length_le (by simp [load]), fun _ => by simp only; omega, by simp⟩

/-- C91: and if libnbd reads what is inside the image, all the bytes up to the end of the image are read, and the end of the
image is told. -/
theorem C91_read_at_succeeds (img : Nat → Byte) (size : Nat) (pread : Nat → Nat → Option Bytes) (len off : Nat)
    (hp : ∀ o n, 0 < n → o + n ≤ size → pread o n = some (load img o n)) (hs : size < 2 ^ 63) (hl : len < 2 ^ 63) (ho : off < size)
    (hn : 0 < len) :
    GoMap.readAt size pread len off = ⟨min len (size - off), if size < off + len then some .eof else none,
      load img off (min len (size - off))⟩ := by
  have h1 : u64 (off : Int) = off := u64_nat' (by omega)
  have h2 : u64 ((off : Int) + (len : Int)) = off + len := by rw [← Int.natCast_add]; exact u64_nat' (by omega)
  unfold GoMap.readAt
  simp only [h1, h2]
  rw [if_neg (by omega)]
  by_cases hlong : size < off + len
  · simp only [if_pos hlong]
    rw [hp off (size - off) (by omega) (by omega), Nat.min_eq_right (by omega)]
  · simp only [if_neg hlong]
    rw [hp off len hn (by omega), Nat.min_eq_left (by omega)]

/-- C91: at the end of the image a reader is not told `io.EOF` but an error, if libnbd refuses reads of no bytes (as it does, unless
told otherwise). -/
theorem C91_counterexample_end (size : Nat) (pread : Nat → Nat → Option Bytes) (len : Nat) (hn : 0 < len) (hz : ∀ o, pread o 0 = none)
    (hs : size < 2 ^ 63) (hl : len < 2 ^ 63) : GoMap.readAt size pread len size = ⟨0, some .other, []⟩ := by
  have h1 : u64 (size : Int) = size := u64_nat' (by omega)
  have h2 : u64 ((size : Int) + (len : Int)) = size + len := by rw [← Int.natCast_add]; exact u64_nat' (by omega)
  unfold GoMap.readAt
  simp only [h1, h2]
  rw [if_neg (by omega), if_pos (by omega), Nat.sub_self, hz]

/-! ## Examples -/

/-- A world with one file, a raw image with the flags `goFlags`. -/
def fileWorld : GoMap.World :=
  { mapWorld with
    stat := fun s => if s = lit "disk" then .found else .missing
    output := fun a => if a = infoArgs (lit "disk") then some [1] else none
    unmarshal := fun _ => some (lit "raw", 12)
    libnbd := fun t => if t = .program (nbdArgs (lit "disk") (lit "raw")) then some (12, goReplies) else none }

theorem fileWorld_connect : connect fileWorld (lit "disk") = some (.nbd (.program (nbdArgs (lit "disk") (lit "raw"))) 12 goReplies) := by
  rfl

example : OpensFile fileWorld (lit "disk") (.nbd (.program (nbdArgs (lit "disk") (lit "raw"))) 12 goReplies) := by
  rcases C91_source_partial _ _ _ fileWorld_connect with ⟨_, h⟩ | ⟨h, _⟩
  · exact h (by decide)
  · cases h

example : GoMap.main fileWorld [lit "map", lit "disk"] = .exit 0 (writeExtents [⟨0, 4, false⟩, ⟨4, 4, true⟩, ⟨8, 4, true⟩]) :=
  C91_succeeds fileWorld _ _ _ (by decide) fileWorld_connect (by
    simp only [extents, goReplies_done, goValues])

example (out : Str) (h : GoMap.main fileWorld [lit "map", lit "disk"] = .exit 0 out) :
    ∃ l, Document out (listing l) ∧ Tiles 0 12 (l.map fun e => (e.1, e.2.1)) := by
  obtain ⟨l, h1, h2, _⟩ := C91_truth fileWorld _ out _ _ _ (fun _ => rfl) (by decide) fileWorld_connect goReplies_truthful h
  exact ⟨l, h1, h2⟩

example : GoMap.main mapWorld [lit "map", lit "-cpuprofile", lit "p", lit "--", lit "https://h/images/x"] =
    .exit 0 (writeExtents [⟨0, 8, false⟩]) ∧
    GoMap.main mapWorld [lit "map", lit "-h"] = .exit 0 [] ∧ GoMap.main mapWorld [lit "map", lit "--x"] = .exit 2 [] ∧
    GoMap.main mapWorld [lit "map", lit "a", lit "b"] = .exit 1 [] ∧ GoMap.main mapWorld [lit "download"] = .exit 1 [] := by
  decide +kernel

/-- The hypotheses of the theorems of reading. -/
example : GoMap.readAt 6 (fun o n => if n = 0 then none else some (load (fun i => i.toUInt8) o n)) 4 3 = ⟨3, some .eof, [3, 4, 5]⟩ ∧
    GoMap.readAt 6 (fun o n => if n = 0 then none else some (load (fun i => i.toUInt8) o n)) 4 6 = ⟨0, some .other, []⟩ := by
  decide +kernel

end Imageio.Props
