import Verif.Model.QemuNbd
import Verif.Spec.QemuNbd
import Verif.Lemmas.HttpServer
/-!
C63: what qemu-nbd is told to export.  C64: the life of the process and waiting for the socket.
-/
namespace Imageio.Props
open Imageio.Spec Imageio.QemuNbd Imageio.Http Imageio.Url
open Imageio.Images (lit Json)

/-! ## The command line -/

/-- The options that the arguments of `Server` ask for, in order. -/
def askedOptions (s : QemuNbd.Server) (env : QemuNbd.Env) (depth : Bool) : QemuOptions :=
  let opt (name : String) (v : Option Str) : QemuOptions :=
    if v = none ∨ v = some [] then [] else [(lit name, v)]
  [(lit "export-name", some s.exportName), (lit "persistent", none), (lit "shared", some (fmtInt s.shared))] ++
  (match s.sock with
    | .unix path => [(lit "socket", some path)]
    | .tcp host port => [(lit "bind", some host), (lit "port", some (fmtInt port))]) ++
  (if s.readOnly then [(lit "read-only", none)] else []) ++
  opt "cache" (some (s.usedCache env)) ++ opt "aio" (some (s.usedAio env)) ++ opt "discard" s.discard ++
  opt "detect-zeroes" s.detectZeroes ++ opt "bitmap" s.bitmap ++
  if depth then [(lit "allocation-depth", none)] else []

theorem qemuArgs_append (a b : List Str) :
    qemuArgs (a ++ b) = ((qemuArgs a).1 ++ (qemuArgs b).1, (qemuArgs a).2 ++ (qemuArgs b).2) := by
  simp [qemuArgs]

theorem qemuArgs_opt {name : String} {arg : String} (h : ∀ v : Str, qemuArg (lit arg ++ v) = some (lit name, some v))
    (v : Option Str) :
    qemuArgs (opt arg v) = (if v = none ∨ v = some [] then [] else [(lit name, v)], []) := by
  cases v with
  | none => rfl
  | some v =>
    cases v with
    | nil => rfl
    | cons c v =>
      rw [if_neg (by simp)]
      simp only [opt, qemuArgs, List.filterMap_cons, List.filterMap_nil, h]
      simp [h]

theorem tupleGe_iff (a b : List Int) : tupleGe a b = true ↔ b ≤ a := by
  induction b generalizing a with
  | nil => simp [tupleGe]
  | cons y b ih =>
    cases a with
    | nil => simp [tupleGe]
    | cons x a =>
      unfold tupleGe
      by_cases h : x = y
      · subst h
        rw [if_pos rfl, ih, List.cons_le_cons_iff]
        simp
      · rw [if_neg h, List.cons_le_cons_iff]
        simp only [decide_eq_true_eq]
        exact ⟨Or.inl, fun h' => h'.elim id fun h' => absurd h'.1.symm h⟩

theorem allocationDepth_iff {s : QemuNbd.Server} {v : List Int} {depth : List Str}
    (h : s.allocationDepth v = .ok depth) :
    depth = if [5, 2, 0] ≤ v ∧ s.fmt ≠ lit "raw" then [lit "--allocation-depth"] else [] := by
  unfold Server.allocationDepth at h
  split at h
  · rename_i hv
    rw [tupleGe_iff] at hv
    cases h
    by_cases hf : s.fmt = lit "raw" <;> simp [hv, hf]
  · rename_i hv
    rw [tupleGe_iff] at hv
    split at h
    · cases h
    · cases h
      rw [if_neg fun hx => hv hx.1]

/-- C63: qemu-nbd gets exactly the options that were asked, with the values as given, whatever
characters they have, and one other argument: the image. -/
theorem C63_options (s : QemuNbd.Server) (env : QemuNbd.Env) (cmd : List Str) (h : s.command env = .ok cmd) :
    ∃ (args : List Str) (blockDevice : Bool) (version : List Int), cmd = env.qemuNbd :: args ∧
      env.blockDevice = .ok blockDevice ∧ env.version = .ok version ∧
      qemuArgs args = (askedOptions s env (decide ([5, 2, 0] ≤ version ∧ s.fmt ≠ lit "raw")),
        [lit "json:" ++ env.dumps (s.nodes blockDevice)]) := by
  unfold Server.command at h
  cases hv : env.version with
  | error e => rw [hv] at h; cases h
  | ok version =>
    rw [hv] at h
    simp only at h
    cases hd : s.allocationDepth version with
    | error e => rw [hd] at h; cases h
    | ok depth =>
      rw [hd] at h
      simp only at h
      cases hb : env.blockDevice with
      | error e => rw [hb] at h; cases h
      | ok b =>
        rw [hb] at h
        simp only [Except.ok.injEq] at h
        have hdepth := allocationDepth_iff hd
        obtain ⟨x, hx⟩ : ∃ x : Bool, x = decide ([5, 2, 0] ≤ version ∧ s.fmt ≠ lit "raw") := ⟨_, rfl⟩
        have hdepth : depth = if x then [lit "--allocation-depth"] else [] := by
          rw [hdepth, hx]
          simp only [decide_eq_true_eq]
        subst hdepth
        subst h
        refine ⟨[lit "--export-name=" ++ s.exportName, lit "--persistent", lit "--shared=" ++ fmtInt s.shared] ++ s.listen ++
          (if s.readOnly then [lit "--read-only"] else []) ++
          opt "--cache=" (some (s.usedCache env)) ++ opt "--aio=" (some (s.usedAio env)) ++
          opt "--discard=" s.discard ++ opt "--detect-zeroes=" s.detectZeroes ++ opt "--bitmap=" s.bitmap ++
          (if x then [lit "--allocation-depth"] else []) ++ [lit "json:" ++ env.dumps (s.nodes b)], b, version, rfl, rfl, rfl, ?_⟩
        rw [← hx]
        have e1 : qemuArgs [lit "--export-name=" ++ s.exportName, lit "--persistent", lit "--shared=" ++ fmtInt s.shared] =
          ([(lit "export-name", some s.exportName), (lit "persistent", none), (lit "shared", some (fmtInt s.shared))], []) := rfl
        have e2 : qemuArgs s.listen = ((match s.sock with
            | .unix path => [(lit "socket", some path)]
            | .tcp host port => [(lit "bind", some host), (lit "port", some (fmtInt port))]), []) := by
          unfold Server.listen
          cases s.sock <;> rfl
        have e3 : qemuArgs (if s.readOnly then [lit "--read-only"] else []) =
            (if s.readOnly then [(lit "read-only", none)] else [], []) := by
          cases s.readOnly <;> rfl
        have e4 : qemuArgs (if x then [lit "--allocation-depth"] else []) =
            (if x then [(lit "allocation-depth", none)] else [], []) := by
          cases x <;> rfl
        have e5 : qemuArgs [lit "json:" ++ env.dumps (s.nodes b)] = ([], [lit "json:" ++ env.dumps (s.nodes b)]) := rfl
        simp only [qemuArgs_append, e1, e2, e3, e4, e5, qemuArgs_opt (name := "cache") (arg := "--cache=") (fun _ => rfl),
          qemuArgs_opt (name := "aio") (arg := "--aio=") (fun _ => rfl),
          qemuArgs_opt (name := "discard") (arg := "--discard=") (fun _ => rfl),
          qemuArgs_opt (name := "detect-zeroes") (arg := "--detect-zeroes=") (fun _ => rfl),
          qemuArgs_opt (name := "bitmap") (arg := "--bitmap=") (fun _ => rfl), List.append_nil]
        rfl

/-- C63: the command fails exactly when the version or the type of the image is not known, or when
ignoring the backing chain of a qcow2 image is not supported. -/
theorem C63_fails (s : QemuNbd.Server) (env : QemuNbd.Env) :
    (∃ e, s.command env = .error e) ↔
      (∃ e, env.version = .error e) ∨ (∃ e, env.blockDevice = .error e) ∨
        ∃ v, env.version = .ok v ∧ ¬ [5, 2, 0] ≤ v ∧ s.fmt = lit "qcow2" ∧ s.backingChain = false := by
  unfold Server.command
  cases hv : env.version with
  | error e => simp
  | ok v =>
    simp only [reduceCtorEq, exists_false, Except.ok.injEq, exists_eq_left', false_or]
    cases hd : s.allocationDepth v with
    | error e =>
      simp only [Except.error.injEq, exists_eq', true_iff]
      right
      unfold Server.allocationDepth at hd
      split at hd
      · cases hd
      · rename_i h
        rw [tupleGe_iff] at h
        split at hd
        · rename_i h2
          exact ⟨h, h2⟩
        · cases hd
    | ok depth =>
      have hn : ¬ (¬ [5, 2, 0] ≤ v ∧ s.fmt = lit "qcow2" ∧ s.backingChain = false) := by
        rintro ⟨h1, h2⟩
        unfold Server.allocationDepth at hd
        rw [if_neg (by rw [tupleGe_iff]; exact h1), if_pos h2] at hd
        cases hd
      cases hb : env.blockDevice with
      | error e => simp
      | ok b => simp only [reduceCtorEq, exists_false, false_or, false_iff]; exact hn

/-- C63: direct I/O is used exactly when the image supports it, and native I/O only with direct I/O,
unless the caller said otherwise. -/
theorem C63_cache (s : QemuNbd.Server) (env : QemuNbd.Env) :
    (s.cache = none → s.usedCache env = if env.directIo then lit "none" else lit "writeback") ∧
    (∀ c, s.cache = some c → s.usedCache env = c) ∧
    (s.aio = none → (s.usedAio env = lit "native" ↔ s.usedCache env = lit "none")) ∧
    (∀ a, s.aio = some a → s.usedAio env = a) := by
  refine ⟨fun h => by simp [Server.usedCache, h], fun c h => by simp [Server.usedCache, h], fun h => ?_,
    fun c h => by simp [Server.usedAio, h]⟩
  simp only [Server.usedAio, h]
  by_cases hc : s.usedCache env = lit "none"
  · simp [hc]
  · have : lit "threads" ≠ lit "native" := by decide
    simp [hc, this]

/-! ## The image -/

/-- The part of the image that was asked for. -/
def askedRegion (s : QemuNbd.Server) (sizes : Str → Nat) : Region :=
  ⟨s.image, s.offset.getD 0, s.size.getD (sizes s.image - s.offset.getD 0)⟩

theorem view_file (sizes : Str → Nat) (n : Nat) (b : Bool) (f : Str) :
    view sizes (n + 1) (.obj [(lit "driver", .str (if b then lit "host_device" else lit "file")), (lit "filename", .str f)]) =
      some (.raw ⟨f, 0, sizes f⟩) := by
  cases b <;> rfl

theorem view_raw (sizes : Str → Nat) (n : Nat) (o z : Option Int) (file : Json) (r : Region)
    (h : view sizes n file = some (.raw r)) :
    view sizes (n + 1) (.obj ([(lit "driver", .str (lit "raw")), (lit "file", file)] ++ field? "offset" o ++ field? "size" z)) =
      if 0 ≤ o.getD 0 ∧ 0 ≤ z.getD (r.size - o.getD 0) ∧ o.getD 0 + z.getD (r.size - o.getD 0) ≤ r.size then
        some (.raw ⟨r.file, r.start + o.getD 0, z.getD (r.size - o.getD 0)⟩) else none := by
  have h1 : (lit "raw" = "file".toList ∨ lit "raw" = "host_device".toList) = False := by simp; decide
  have h2 : lit "raw" = "raw".toList := rfl
  have hd : jsonField "driver" (.obj ([(lit "driver", .str (lit "raw")), (lit "file", file)] ++ field? "offset" o ++ field? "size" z)) =
    some (.str (lit "raw")) := rfl
  have hf : jsonField "file" (.obj ([(lit "driver", .str (lit "raw")), (lit "file", file)] ++ field? "offset" o ++ field? "size" z)) =
    some file := rfl
  have ho : jsonInt 0 (jsonField "offset" (.obj ([(lit "driver", .str (lit "raw")), (lit "file", file)] ++ field? "offset" o ++
    field? "size" z))) = some (o.getD 0) := by cases o <;> cases z <;> rfl
  have hz : ∀ d, jsonInt d (jsonField "size" (.obj ([(lit "driver", .str (lit "raw")), (lit "file", file)] ++ field? "offset" o ++
    field? "size" z))) = some (z.getD d) := by intro d; cases o <;> cases z <;> rfl
  unfold view
  simp only [hd, hf, ho, hz, jsonStr, h1, h2, if_false, if_true, Option.bind_some, h]

theorem view_qcow2 (sizes : Str → Nat) (n : Nat) (rest : List (Str × Json)) (file : Json) (r : Region)
    (h : view sizes n file = some (.raw r)) :
    view sizes (n + 1) (.obj ([(lit "driver", .str (lit "qcow2")), (lit "file", file)] ++ rest)) =
      some (.qcow2 r (jsonField "backing" (.obj rest)).isNone) := by
  have h1 : (lit "qcow2" = "file".toList ∨ lit "qcow2" = "host_device".toList) = False := by simp; decide
  have h3 : (lit "qcow2" = "raw".toList) = False := by simp; decide
  have h2 : lit "qcow2" = "qcow2".toList := rfl
  have hd : jsonField "driver" (.obj ([(lit "driver", .str (lit "qcow2")), (lit "file", file)] ++ rest)) =
    some (.str (lit "qcow2")) := rfl
  have hf : jsonField "file" (.obj ([(lit "driver", .str (lit "qcow2")), (lit "file", file)] ++ rest)) = some file := rfl
  have hb : jsonField "backing" (.obj ([(lit "driver", .str (lit "qcow2")), (lit "file", file)] ++ rest)) =
    jsonField "backing" (.obj rest) := rfl
  unfold view
  simp only [hd, hf, hb, jsonStr, h1, h3, if_false, Option.bind_some, h]
  rfl

/-- C63: the export of a raw image is exactly the part of the file that was asked for, at the same
place; a part that is not inside of the file is refused. -/
theorem C63_raw (s : QemuNbd.Server) (sizes : Str → Nat) (b : Bool) (hf : s.fmt = lit "raw") :
    ((askedRegion s sizes).Inside sizes → view sizes 3 (s.nodes b) = some (.raw (askedRegion s sizes))) ∧
    (¬ (askedRegion s sizes).Inside sizes → view sizes 3 (s.nodes b) = none) := by
  have hv : view sizes 3 (s.nodes b) =
      if (askedRegion s sizes).Inside sizes then some (.raw (askedRegion s sizes)) else none := by
    have hq : (lit "raw" = lit "qcow2") = False := by simp; decide
    have hr := view_raw sizes 2 s.offset s.size _ _ (view_file sizes 1 b s.image)
    unfold Server.nodes
    simp only [hf, hq, false_and, if_false]
    split
    · rw [hr]
      simp only [Int.zero_add]
      rfl
    · rename_i h
      have ho : s.offset = none := by
        cases hx : s.offset with
        | none => rfl
        | some o => exact (h (.inl (by simp [hx]))).elim
      have hz : s.size = none := by
        cases hx : s.size with
        | none => rfl
        | some o => exact (h (.inr (by simp [hx]))).elim
      rw [ho, hz] at hr
      simp only [field?, List.append_nil, Option.getD_none] at hr
      rw [List.append_nil, hr]
      simp only [askedRegion, Region.Inside, ho, hz, Option.getD_none, Int.zero_add]
  rw [hv]
  exact ⟨fun h => if_pos h, fun h => if_neg h⟩

/-- C63: the export of a whole qcow2 image is the image, with its backing chain exactly when asked. -/
theorem C63_qcow2 (s : QemuNbd.Server) (sizes : Str → Nat) (b : Bool) (hf : s.fmt = lit "qcow2")
    (ho : s.offset = none) (hz : s.size = none) :
    view sizes 3 (s.nodes b) = some (.qcow2 ⟨s.image, 0, sizes s.image⟩ s.backingChain) := by
  have := view_qcow2 sizes 2 (if s.backingChain = false then [(lit "backing", .null)] else []) _ _
    (view_file sizes 1 b s.image)
  unfold Server.nodes
  simp only [hf, ho, hz, ne_eq, not_true_eq_false, or_self, if_false, true_and]
  rw [this]
  cases s.backingChain <;> rfl

/-- C63: a qcow2 image in a part of a file, such as a member of a tar file, is read only from this
part.  `backing_chain` is ignored: the full claim would have `s.backingChain` for the chain. -/
theorem C63_qcow2_range_partial (s : QemuNbd.Server) (sizes : Str → Nat) (b : Bool) (hf : s.fmt = lit "qcow2")
    (hr : s.offset ≠ none ∨ s.size ≠ none) :
    ((askedRegion s sizes).Inside sizes → view sizes 3 (s.nodes b) = some (.qcow2 (askedRegion s sizes) true)) ∧
    (¬ (askedRegion s sizes).Inside sizes → view sizes 3 (s.nodes b) = none) := by
  have h1 := view_raw sizes 1 s.offset s.size _ _ (view_file sizes 0 b s.image)
  unfold Server.nodes
  simp only [hf, if_pos hr, if_true]
  simp only [Int.zero_add] at h1
  constructor
  · intro h
    have h1 := h1.trans (if_pos h)
    exact view_qcow2 sizes 2 [] _ _ h1
  · intro h
    have h1 := h1.trans (if_neg h)
    have hd : ∀ file, view sizes 2 file = none →
        view sizes 3 (.obj [(lit "driver", .str (lit "qcow2")), (lit "file", file)]) = none := by
      intro file hx
      have h1 : (lit "qcow2" = "file".toList ∨ lit "qcow2" = "host_device".toList) = False := by simp; decide
      have h3 : (lit "qcow2" = "raw".toList) = False := by simp; decide
      have h2 : lit "qcow2" = "qcow2".toList := rfl
      have hd : jsonField "driver" (.obj [(lit "driver", .str (lit "qcow2")), (lit "file", file)]) =
        some (.str (lit "qcow2")) := rfl
      have hf : jsonField "file" (.obj [(lit "driver", .str (lit "qcow2")), (lit "file", file)]) = some file := rfl
      unfold view
      simp only [hd, hf, jsonStr, h1, h3, if_false, Option.bind_some, hx]
      rfl
    exact hd _ h1

/-- A request for a part of a qcow2 image without its backing chain. -/
def rangeServer : QemuNbd.Server :=
  { image := lit "/tmp/disk.ova", fmt := lit "qcow2", sock := .unix (lit "/tmp/sock"), readOnly := true,
    backingChain := false, offset := some 512, size := some 1024 }

/-- C63: asking for no backing chain is ignored for a qcow2 image in a part of a file: the file that
the image names as its backing file is read. -/
theorem C63_counterexample_chain : ∃ (s : QemuNbd.Server) (sizes : Str → Nat) (r : Region),
    s.backingChain = false ∧ view sizes 3 (s.nodes false) = some (.qcow2 r true) :=
  ⟨rangeServer, fun _ => 2000, ⟨lit "/tmp/disk.ova", 512, 1024⟩, rfl, by decide +kernel⟩

/-- C63: for a part of an image in another format the format is ignored: the guest sees the bytes of
the file, although a whole image of this format is opened with the driver of the format. -/
theorem C63_counterexample_format : ∃ (s : QemuNbd.Server) (sizes : Str → Nat) (r : Region),
    s.fmt = lit "vmdk" ∧ view sizes 3 (s.nodes false) = some (.raw r) ∧
    jsonField "driver" ({ s with offset := none, size := none }.nodes false) = some (.str (lit "vmdk")) :=
  ⟨{ rangeServer with fmt := lit "vmdk" }, fun _ => 2000, ⟨lit "/tmp/disk.ova", 512, 1024⟩, rfl,
    by decide +kernel, rfl⟩

/-- C63: the nodes for the information about a member of a tar file: the same part as that of the
export. -/
theorem C63_json_uri (filename : Str) (offset size : Int) (sizes : Str → Nat)
    (h : (⟨filename, offset, size⟩ : Region).Inside sizes) :
    (jsonField "file" (jsonUri filename offset size)).bind (view sizes 3) = some (.raw ⟨filename, offset, size⟩) ∧
    jsonField "driver" (jsonUri filename offset size) = none := by
  refine ⟨?_, rfl⟩
  have h1 : (lit "raw" = "file".toList ∨ lit "raw" = "host_device".toList) = False := by simp; decide
  have h2 : lit "raw" = "raw".toList := rfl
  have e : jsonField "file" (jsonUri filename offset size) = some (.obj [(lit "driver", .str (lit "raw")),
    (lit "offset", .int offset), (lit "size", .int size),
    (lit "file", .obj [(lit "driver", .str (lit "file")), (lit "filename", .str filename)])]) := rfl
  have hv := view_file sizes 1 false filename
  rw [e, Option.bind_some]
  generalize hfile : Json.obj [(lit "driver", .str (lit "file")), (lit "filename", .str filename)] = file
  have hv : view sizes 2 file = some (.raw ⟨filename, 0, sizes filename⟩) := by rw [← hfile]; exact hv
  have hd : jsonField "driver" (.obj [(lit "driver", .str (lit "raw")), (lit "offset", .int offset), (lit "size", .int size),
    (lit "file", file)]) = some (.str (lit "raw")) := rfl
  have hf : jsonField "file" (.obj [(lit "driver", .str (lit "raw")), (lit "offset", .int offset), (lit "size", .int size),
    (lit "file", file)]) = some file := rfl
  have ho : jsonField "offset" (.obj [(lit "driver", .str (lit "raw")), (lit "offset", .int offset), (lit "size", .int size),
    (lit "file", file)]) = some (.int offset) := rfl
  have hz : jsonField "size" (.obj [(lit "driver", .str (lit "raw")), (lit "offset", .int offset), (lit "size", .int size),
    (lit "file", file)]) = some (.int size) := rfl
  unfold view
  simp only [hd, hf, ho, hz, jsonStr, jsonInt, h1, h2, if_false, if_true, Option.bind_some, hv, Int.zero_add]
  exact if_pos h

/-! ## The version -/

/-- The dotted form of a version. -/
def DottedVersion : Str → List Nat → Prop
  | _, [] => False
  | s, [n] => Number s n
  | s, n :: ns => ∃ a r, s = a ++ '.' :: r ∧ Number a n ∧ DottedVersion r ns

theorem number_plain {s : Str} {n : Nat} (h : Number s n) :
    ∀ c ∈ s, c ≠ '.' ∧ isPySpace c = false := by
  intro c hc
  have hd := (number_iff.1 h).2.1 c hc
  constructor
  · rintro rfl
    exact absurd hd (by decide)
  · cases hs : isPySpace c with
    | false => rfl
    | true =>
      have h1 : 48 ≤ c.toNat ∧ c.toNat ≤ 57 := by
        simp only [Char.isDigit, Bool.and_eq_true, decide_eq_true_eq] at hd
        exact ⟨UInt32.le_iff_toNat_le.1 hd.1, UInt32.le_iff_toNat_le.1 hd.2⟩
      simp [isPySpace] at hs
      omega

theorem splitOn_plain {a : Str} (h : ∀ c ∈ a, c ≠ '.') : splitOn '.' a = [a] := by
  induction a with
  | nil => rfl
  | cons x a ih =>
    rw [splitOn, if_neg (h x (by simp)), ih fun c hc => h c (by simp [hc])]

theorem splitOn_dot {a : Str} (h : ∀ c ∈ a, c ≠ '.') (r : Str) : splitOn '.' (a ++ '.' :: r) = a :: splitOn '.' r := by
  induction a with
  | nil => simp [splitOn]
  | cons x a ih =>
    rw [List.cons_append, splitOn, if_neg (h x (by simp)), ih fun c hc => h c (by simp [hc])]

theorem splitOn_version {w : Str} {v : List Nat} (h : DottedVersion w v) :
    (splitOn '.' w).mapM pyInt = some (v.map fun n : Nat => (n : Int)) ∧ w ≠ [] ∧ ∀ c ∈ w, isPySpace c = false := by
  induction v generalizing w with
  | nil => exact h.elim
  | cons n v ih =>
    cases v with
    | nil =>
      have h : Number w n := h
      refine ⟨?_, h.1, fun c hc => (number_plain h c hc).2⟩
      rw [splitOn_plain fun c hc => (number_plain h c hc).1]
      simp [pyInt_number h]
    | cons m v =>
      obtain ⟨a, r, rfl, ha, hr⟩ := h
      obtain ⟨h1, h2, h3⟩ := ih hr
      refine ⟨?_, by simp, ?_⟩
      · rw [splitOn_dot fun c hc => (number_plain ha c hc).1]
        simp [pyInt_number ha, h1]
      · intro c hc
        simp only [List.mem_append, List.mem_cons] at hc
        rcases hc with hc | rfl | hc
        · exact (number_plain ha c hc).2
        · rfl
        · exact h3 c hc

theorem lineBreak_space {c : Char} (h : isPySpace c = false) : isLineBreak c = false := by
  cases hs : isLineBreak c with
  | false => rfl
  | true => simp_all [isPySpace, isLineBreak]; omega

theorem takeWhile_prefix {α : Type} {p : α → Bool} {a r : List α} (h : ∀ x ∈ a, p x = true) :
    (a ++ r).takeWhile p = a ++ r.takeWhile p := by
  induction a with
  | nil => rfl
  | cons x a ih => simp [h x (by simp), ih fun y hy => h y (by simp [hy])]

theorem dropWhile_prefix {α : Type} {p : α → Bool} {a r : List α} (h : ∀ x ∈ a, p x = true) :
    (a ++ r).dropWhile p = r.dropWhile p := by
  induction a with
  | nil => rfl
  | cons x a ih => simp [h x (by simp), ih fun y hy => h y (by simp [hy])]

/-- C63: the version is the dotted version after the name of the program, whatever follows after it,
such as the name of the package or a copyright line. -/
theorem C63_version (name w rest : Str) (v : List Nat) (hn : name ≠ []) (hns : ∀ c ∈ name, isPySpace c = false)
    (hw : DottedVersion w v) (hr : ∀ c ∈ rest.head?, isPySpace c = true) :
    version (name ++ ' ' :: w ++ rest) = .ok (v.map fun n : Nat => (n : Int)) := by
  obtain ⟨h1, h2, h3⟩ := splitOn_version hw
  have hline : (name ++ ' ' :: w ++ rest).takeWhile (fun c => !isLineBreak c) =
      name ++ ' ' :: (w ++ rest.takeWhile fun c => !isLineBreak c) := by
    rw [List.append_assoc, takeWhile_prefix fun x hx => by rw [lineBreak_space (hns x hx)]; rfl, List.cons_append,
      List.takeWhile_cons, if_pos (by rfl), takeWhile_prefix fun x hx => by rw [lineBreak_space (h3 x hx)]; rfl]
  generalize hrest : (rest.takeWhile fun c => !isLineBreak c) = rest' at hline
  have hr' : ∀ c ∈ rest'.head?, isPySpace c = true := by
    cases rest with
    | nil => subst hrest; simp
    | cons c rest =>
      subst hrest
      rw [List.takeWhile_cons]
      split
      · simpa using hr
      · simp
  have hsw : secondWord (name ++ ' ' :: (w ++ rest')) = some w := by
    obtain ⟨x, name', rfl⟩ : ∃ x n, name = x :: n := by
      cases name with
      | nil => exact absurd rfl hn
      | cons x n => exact ⟨x, n, rfl⟩
    obtain ⟨y, w', rfl⟩ : ∃ x n, w = x :: n := by
      cases w with
      | nil => exact absurd rfl h2
      | cons x n => exact ⟨x, n, rfl⟩
    unfold secondWord
    simp only
    rw [List.cons_append, List.dropWhile_cons, if_neg (by rw [hns x (by simp)]; simp), ← List.cons_append,
      dropWhile_prefix (fun c hc => by rw [hns c hc]; rfl), List.dropWhile_cons, if_neg (by decide),
      List.dropWhile_cons, if_pos (by decide), List.cons_append, List.dropWhile_cons,
      if_neg (by rw [h3 y (by simp)]; simp)]
    simp only [Option.some.injEq]
    rw [← List.cons_append, takeWhile_prefix (fun c hc => by rw [h3 c hc]; rfl)]
    cases rest' with
    | nil => simp
    | cons c r =>
      rw [List.takeWhile_cons, if_neg (by rw [hr' c (by simp)]; simp), List.append_nil]
  unfold version
  rw [if_neg (by simp), hline, hsw]
  simp only [h1]

/-- C63: only the first line counts: when it has one word, there is no version, whatever the other
lines are.  The line breaks are those of `str.splitlines`, up to the character 255. -/
theorem C63_version_first_line (name rest : Str) (b : Char)
    (hb : b ∈ ['\n', '\x0b', '\x0c', '\r', '\x1c', '\x1d', '\x1e', '\x85'])
    (hns : ∀ c ∈ name, isPySpace c = false) :
    version (name ++ b :: rest) = .error (.exception "IndexError") := by
  have hbreak : isLineBreak b = true := by
    simp only [List.mem_cons, List.not_mem_nil, or_false] at hb
    rcases hb with rfl | rfl | rfl | rfl | rfl | rfl | rfl | rfl <;> decide
  have hline : (name ++ b :: rest).takeWhile (fun c => !isLineBreak c) = name := by
    rw [takeWhile_prefix fun x hx => by rw [lineBreak_space (hns x hx)]; rfl, List.takeWhile_cons,
      if_neg (by simp [hbreak]), List.append_nil]
  have hsw : secondWord name = none := by
    have h1 : name.dropWhile isPySpace = name := by
      cases name with
      | nil => rfl
      | cons x n => rw [List.dropWhile_cons, if_neg (by simp [hns x (by simp)])]
    have h2 : name.dropWhile (fun c => !isPySpace c) = [] := by
      have := dropWhile_prefix (p := fun c => !isPySpace c) (a := name) (r := []) (fun c hc => by simp [hns c hc])
      simpa using this
    unfold secondWord
    simp [h1, h2]
  unfold version
  rw [if_neg (by simp), hline, hsw]

/-- The version in the second line is not used. -/
example : version (lit "qemu-nbd\nqemu-nbd 6.1.0\n") = .error (.exception "IndexError") := by decide +kernel

/-- C63: the depths of the allocation are exported for an image that is not raw exactly by qemu 5.2.0
and later. -/
theorem C63_allocation_depth (s : QemuNbd.Server) (a b c : Nat) (rest : List Int) :
    (s.allocationDepth (a :: b :: c :: rest) = .ok [lit "--allocation-depth"] ↔
      s.fmt ≠ lit "raw" ∧ (5 < a ∨ a = 5 ∧ 2 ≤ b)) := by
  have hv : tupleGe (a :: b :: c :: rest) [5, 2, 0] = true ↔ (5 < a ∨ a = 5 ∧ 2 ≤ b) := by
    rw [tupleGe_iff]
    simp only [List.cons_le_cons_iff, List.nil_le, and_true]
    omega
  unfold Server.allocationDepth
  by_cases hx : (5 < a ∨ a = 5 ∧ 2 ≤ b)
  · rw [if_pos (hv.2 hx)]
    by_cases hf : s.fmt = lit "raw" <;> simp [hf, hx]
  · rw [if_neg fun h => hx (hv.1 h)]
    split <;> simp [hx]

/-! ## Waiting for the socket -/

/-- Nothing listened yet, at a time before the deadline. -/
def NotYet (deadline : Nat) (a : Check × Nat) : Prop := a.1 = .notReady ∧ a.2 < deadline

/-- C64: the wait ends with the first check that connects, raises, or is too late, and with nothing
else. -/
theorem C64_wait (step deadline : Nat) (attempts : List (Check × Nat)) :
    (waitForSocket step deadline attempts = .ready ↔
      ∃ pre t post, attempts = pre ++ (.connected, t) :: post ∧ ∀ a ∈ pre, NotYet deadline a) ∧
    (waitForSocket step deadline attempts = .timeout ↔
      ∃ pre t post, attempts = pre ++ (.notReady, t) :: post ∧ deadline ≤ t ∧ ∀ a ∈ pre, NotYet deadline a) ∧
    (∀ e, waitForSocket step deadline attempts = .raised e ↔
      ∃ pre t post, attempts = pre ++ (.failed e, t) :: post ∧ ∀ a ∈ pre, NotYet deadline a) ∧
    ((∃ n, waitForSocket step deadline attempts = .sleeping n) ↔ ∀ a ∈ attempts, NotYet deadline a) := by
  induction attempts with
  | nil => simp [waitForSocket]
  | cons x rest ih =>
    obtain ⟨c, t⟩ := x
    cases c with
    | connected =>
      simp only [waitForSocket, true_iff, reduceCtorEq, false_iff, exists_false]
      refine ⟨⟨[], t, rest, rfl, by simp⟩, ?_, ?_, ?_⟩
      · rintro ⟨pre, u, post, h, -, hp⟩
        cases pre with
        | nil => cases h
        | cons y pre => cases h; have hx := (hp _ (List.mem_cons_self ..)).1; cases hx
      · rintro e ⟨pre, u, post, h, hp⟩
        cases pre with
        | nil => cases h
        | cons y pre => cases h; have hx := (hp _ (List.mem_cons_self ..)).1; cases hx
      · intro h
        have hx := (h _ (List.mem_cons_self ..)).1; cases hx
    | failed e =>
      simp only [waitForSocket, reduceCtorEq, false_iff, exists_false, Waited.raised.injEq]
      refine ⟨?_, ?_, ?_, ?_⟩
      · rintro ⟨pre, u, post, h, hp⟩
        cases pre with
        | nil => cases h
        | cons y pre => cases h; have hx := (hp _ (List.mem_cons_self ..)).1; cases hx
      · rintro ⟨pre, u, post, h, -, hp⟩
        cases pre with
        | nil => cases h
        | cons y pre => cases h; have hx := (hp _ (List.mem_cons_self ..)).1; cases hx
      · intro e'
        constructor
        · rintro rfl
          exact ⟨[], t, rest, rfl, by simp⟩
        · rintro ⟨pre, u, post, h, hp⟩
          cases pre with
          | nil => cases h; rfl
          | cons y pre => cases h; have hx := (hp _ (List.mem_cons_self ..)).1; cases hx
      · intro h
        have hx := (h _ (List.mem_cons_self ..)).1; cases hx
    | notReady =>
      by_cases ht : t ≥ deadline
      · have hw : waitForSocket step deadline ((.notReady, t) :: rest) = .timeout := by
          unfold waitForSocket
          exact if_pos ht
        simp only [hw, reduceCtorEq, false_iff, exists_false, true_iff]
        refine ⟨?_, ⟨[], t, rest, rfl, ht, by simp⟩, ?_, ?_⟩
        · rintro ⟨pre, u, post, h, hp⟩
          cases pre with
          | nil => cases h
          | cons y pre =>
            cases h
            have : t < deadline := (hp _ (List.mem_cons_self ..)).2
            omega
        · rintro e ⟨pre, u, post, h, hp⟩
          cases pre with
          | nil => cases h
          | cons y pre =>
            cases h
            have : t < deadline := (hp _ (List.mem_cons_self ..)).2
            omega
        · intro h
          have : t < deadline := (h _ (List.mem_cons_self ..)).2
          omega
      · have hn : NotYet deadline (.notReady, t) := ⟨rfl, by simp only; omega⟩
        have key : (waitForSocket step deadline ((.notReady, t) :: rest) = waitForSocket step deadline rest) ∨
            rest = [] ∧ waitForSocket step deadline ((.notReady, t) :: rest) = .sleeping (min step (deadline - t)) := by
          cases rest with
          | nil => right; simp [waitForSocket, ht]
          | cons r rest => left; rw [waitForSocket, if_neg ht]
        obtain ⟨i1, i2, i3, i4⟩ := ih
        have grow : ∀ {x : Check} {P : Nat → Prop}, x ≠ .notReady ∨ (∀ u, P u → deadline ≤ u) →
            ((∃ pre u post, rest = pre ++ (x, u) :: post ∧ P u ∧ ∀ a ∈ pre, NotYet deadline a) ↔
            ∃ pre u post, (Check.notReady, t) :: rest = pre ++ (x, u) :: post ∧ P u ∧ ∀ a ∈ pre, NotYet deadline a) := by
          intro x P hx
          constructor
          · rintro ⟨pre, u, post, h, hP, hp⟩
            refine ⟨(.notReady, t) :: pre, u, post, by rw [h]; rfl, hP, ?_⟩
            intro a ha
            rcases List.mem_cons.1 ha with rfl | ha
            · exact hn
            · exact hp a ha
          · rintro ⟨pre, u, post, h, hP, hp⟩
            cases pre with
            | nil =>
              cases h
              rcases hx with hx | hx
              · exact absurd rfl hx
              · have := hx _ hP; omega
            | cons y pre =>
              cases h
              exact ⟨pre, u, post, rfl, hP, fun a ha => hp a (by simp [ha])⟩
        have g1 := grow (x := .connected) (P := fun _ => True) (.inl nofun)
        have g2 := grow (x := .notReady) (P := fun u => deadline ≤ u) (.inr fun _ h => h)
        have g3 := fun e => grow (x := .failed e) (P := fun _ => True) (.inl nofun)
        simp only [true_and] at g1 g3
        have g4 : (∀ a ∈ rest, NotYet deadline a) ↔ ∀ a ∈ (Check.notReady, t) :: rest, NotYet deadline a := by
          simp [hn]
        rw [← g1, ← g2, ← g4]
        simp only [← g3]
        rcases key with key | ⟨rfl, key⟩
        · rw [key]; exact ⟨i1, i2, i3, i4⟩
        · rw [key]; simp

/-- C64: a sleep is no longer than one step, ends not after the deadline, and is not empty. -/
theorem C64_sleep (step deadline : Nat) (pre : List (Check × Nat)) (c : Check) (now n : Nat)
    (h : waitForSocket step deadline (pre ++ [(c, now)]) = .sleeping n) :
    n ≤ step ∧ now + n ≤ deadline ∧ (0 < step → 0 < n) ∧ (n = step ∨ now + n = deadline) := by
  induction pre with
  | nil =>
    cases c with
    | connected => cases h
    | failed e => cases h
    | notReady =>
      simp only [List.nil_append, waitForSocket] at h
      split at h
      · cases h
      · cases h
        omega
  | cons x pre ih =>
    obtain ⟨c', t⟩ := x
    cases c' with
    | connected => cases h
    | failed e => cases h
    | notReady =>
      cases hp : pre ++ [(c, now)] with
      | nil => simp at hp
      | cons r rest =>
        rw [List.cons_append, hp, waitForSocket] at h
        split at h
        · cases h
        · rw [hp] at ih
          exact ih h

/-- The clock does not go back, and moves on by the time slept between two checks. -/
def ClockSleeps (step deadline : Nat) : List (Check × Nat) → Prop
  | [] => True
  | [_] => True
  | (_, t) :: (c, u) :: rest => t + min step (deadline - t) ≤ u ∧ ClockSleeps step deadline ((c, u) :: rest)

/-- C64: the socket is checked only so often: while the wait goes on after `k + 1` checks, `k` steps
are less than the timeout.  So the wait ends, and not long after the timeout. -/
theorem C64_bounded (step start timeout : Nat) (c : Check) (t : Nat) (rest : List (Check × Nat))
    (hs : start ≤ t) (hc : ClockSleeps step (start + timeout) ((c, t) :: rest)) (n : Nat)
    (h : waitForSocket step (start + timeout) ((c, t) :: rest) = .sleeping n) :
    rest.length * step < timeout := by
  have hn := ((C64_wait step (start + timeout) ((c, t) :: rest)).2.2.2.1 ⟨n, h⟩)
  suffices h : ∀ (rest : List (Check × Nat)) (c : Check) (t : Nat), ClockSleeps step (start + timeout) ((c, t) :: rest) →
      (∀ a ∈ (c, t) :: rest, NotYet (start + timeout) a) → t + rest.length * step < start + timeout by
    have := h rest c t hc hn
    omega
  intro rest
  induction rest with
  | nil =>
    intro c t _ hn
    have := (hn _ (List.mem_cons_self ..)).2
    simpa using this
  | cons x rest ih =>
    obtain ⟨c', u⟩ := x
    intro c t hc hn
    obtain ⟨h1, h2⟩ := hc
    have h3 := ih c' u h2 fun a ha => hn a (by simp [ha])
    have h4 := (hn (c', u) (by simp)).2
    simp only at h4
    rw [List.length_cons, Nat.succ_mul]
    omega

/-! ## The process -/

/-- C64: the body runs only after the socket was ready, and its result is the result unless stopping
failed. -/
theorem C64_body (w : World) (cmd : Except Err (List Str)) (body : Except Err Unit) :
    (∀ p, run w cmd body = (.ok (), p) → (∃ c, cmd = .ok c) ∧ w.popen = .ok () ∧ w.wait = .ok true ∧ body = .ok ()) ∧
    (∀ c, cmd = .ok c → w.popen = .ok () → w.wait = .ok true → (w.exitsOnTerm = true ∨ w.exitsOnKill = true) →
      run w cmd body = (body, ⟨false, false⟩)) ∧
    (w.wait ≠ .ok true → ∃ e, ∀ body, (run w cmd body).1 = .error e) := by
  obtain ⟨popen, wait, term, kill⟩ := w
  refine ⟨?_, ?_, ?_⟩
  · intro p h
    cases cmd with
    | error e => simp [run, start] at h
    | ok c =>
      cases popen with
      | error e => simp [run, start] at h
      | ok u =>
        cases wait with
        | error e => simp [run, start] at h
        | ok b => cases b <;> cases term <;> cases kill <;> simp_all [run, start, stop]
  · intro c h1 h2 h3 h4
    simp only at h2 h3 h4
    subst h1 h2 h3
    cases term <;> cases kill <;> simp_all [run, start, stop]
  · intro h
    cases cmd with
    | error e => exact ⟨e, fun _ => rfl⟩
    | ok c =>
      cases popen with
      | error e => exact ⟨e, fun _ => rfl⟩
      | ok u =>
        cases wait with
        | error e => exact ⟨e, fun _ => rfl⟩
        | ok b =>
          cases b with
          | true => exact absurd rfl h
          | false => cases term <;> cases kill <;> exact ⟨_, fun _ => rfl⟩

/-- C64: however the body ends, no process is left.  Missing, and false: when the wait for the socket
raises, and when the process does not end in time after SIGKILL. -/
theorem C64_stopped_partial (w : World) (cmd : Except Err (List Str)) (body : Except Err Unit)
    (hw : ∀ e, w.wait ≠ .error e) (hk : w.exitsOnTerm = true ∨ w.exitsOnKill = true) :
    (run w cmd body).2 = ⟨false, false⟩ := by
  obtain ⟨popen, wait, term, kill⟩ := w
  cases cmd with
  | error e => rfl
  | ok c =>
    cases popen with
    | error e => rfl
    | ok u =>
      cases wait with
      | error e => exact absurd rfl (hw e)
      | ok b => cases b <;> cases term <;> cases kill <;> simp_all [run, start, stop]

/-- C64: the process is left behind when the wait for the socket raises, such as with EACCES on the
socket: `start()` is called before the `try` of `run()`. -/
theorem C64_counterexample_leak : ∃ (w : World) (step deadline : Nat) (attempts : List (Check × Nat)) (e : Err),
    waitForSocket step deadline attempts = .raised e ∧ w.wait = .error e ∧ w.exitsOnTerm = true ∧
    run w (.ok [lit "qemu-nbd"]) (.ok ()) = (.error e, ⟨true, true⟩) :=
  ⟨⟨.ok (), .error (.exception "PermissionError"), true, true⟩, 20, 10000,
    [(.notReady, 1), (.failed (.exception "PermissionError"), 21)], .exception "PermissionError", rfl, rfl, rfl, rfl⟩

/-! ## Examples -/

/-- A request for a raw image over a unix socket. -/
def exportServer : QemuNbd.Server :=
  { image := lit "/tmp/disk=1.raw", fmt := lit "raw", sock := .unix (lit "/tmp/a b.sock"), readOnly := false,
    bitmap := none, offset := some 512, size := some 1024 }

def exportEnv : QemuNbd.Env :=
  { qemuNbd := lit "qemu-nbd", directIo := true, version := .ok [6, 0, 0], blockDevice := .ok false,
    dumps := fun _ => lit "{}" }

example : ∃ cmd, exportServer.command exportEnv = .ok cmd ∧
    lit "--socket=/tmp/a b.sock" ∈ cmd ∧ lit "--cache=none" ∈ cmd ∧ lit "--aio=native" ∈ cmd := by
  refine ⟨_, rfl, ?_, ?_, ?_⟩ <;> decide +kernel

example : (askedRegion exportServer fun _ => 4096).Inside (fun _ => 4096) ∧
    ¬ (askedRegion exportServer fun _ => 1000).Inside (fun _ => 1000) := by decide +kernel

example : view (fun _ => 4096) 3 (exportServer.nodes true) = some (.raw ⟨lit "/tmp/disk=1.raw", 512, 1024⟩) := by
  decide +kernel

example : version (lit "qemu-nbd 5.2.0 (qemu-kvm-5.2.0-16)\nWritten by Anthony Liguori.") = .ok [5, 2, 0] := by
  decide +kernel

example : DottedVersion (lit "5.2.10") [5, 2, 10] :=
  ⟨lit "5", lit "2.10", rfl, (Http.number_iff.2 ⟨by decide, by decide, rfl⟩), lit "2", lit "10", rfl,
    Http.number_iff.2 ⟨by decide, by decide, rfl⟩, Http.number_iff.2 ⟨by decide, by decide, rfl⟩⟩

/-- A version of two numbers sorts before the same version with a zero. -/
example : version (lit "qemu-nbd 5.2 rc") = .ok [5, 2] ∧ tupleGe [5, 2] [5, 2, 0] = false := by decide +kernel

example : waitForSocket 20 100 [(.notReady, 1), (.notReady, 22), (.connected, 43)] = .ready := rfl
example : waitForSocket 20 100 [(.notReady, 1), (.notReady, 95)] = .sleeping 5 := rfl
example : waitForSocket 20 100 [(.notReady, 1), (.notReady, 95), (.notReady, 100)] = .timeout := rfl
example : ClockSleeps 20 (0 + 100) [(.notReady, 1), (.notReady, 22), (.notReady, 43)] := by simp [ClockSleeps]

end Imageio.Props
