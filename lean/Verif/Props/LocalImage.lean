import Verif.Model.LocalImage
import Verif.Spec.LocalImage
import Verif.Props.QemuNbd
import Verif.Props.NbdExtents
import Verif.Props.Api
import Verif.Lemmas.Memory
/-!
C78: local images.  The commands of qemu-img ask for what was requested; a member of a tar file is found;
the checksum of a local image is that of what the guest sees; comparing it with the checksum of the server
verifies an upload.
-/
namespace Imageio.Props
open Imageio.Spec Imageio.Http Imageio.Images Imageio.Extents Imageio.LocalImage
open Imageio.QemuNbd (jsonUri)
open Imageio.NbdWire (Env)
open Imageio.Api (uploadActs)

variable {τ : Type}

/-! ## Commands of qemu-img -/

/-- An argument that is not taken for an option. -/
def PlainArg (a : Str) : Prop := a.head? ≠ some '-'

instance (a : Str) : Decidable (PlainArg a) := by unfold PlainArg; infer_instance

theorem getopt_plain {a : Str} (h : PlainArg a) (rest : List Str) :
    getopt (a :: rest) = (getopt rest).map fun r => (r.1, a :: r.2) := by
  unfold PlainArg at h
  match a with
  | [] => simp [getopt]
  | c :: a =>
    have hc : c ≠ '-' := by simpa using h
    rw [getopt]
    all_goals
      intros
      simp_all

theorem getopt_value (c : Char) (h : c ≠ '-') (ho : imgOption [c] = some true) (v : Str) (rest : List Str) :
    getopt (['-', c] :: v :: rest) = (getopt rest).map fun r => (([c], some v) :: r.1, r.2) := by
  rw [getopt.eq_def]
  split <;> simp_all
  rename_i heq
  · obtain ⟨rfl, rfl⟩ := heq
    rfl
  · rename_i hx heq
    exact absurd heq.1.symm (hx _ _)

theorem getopt_flag (c : Char) (h : c ≠ '-') (ho : imgOption [c] = some false) (rest : List Str) :
    getopt (['-', c] :: rest) = (getopt rest).map fun r => (([c], none) :: r.1, r.2) := by
  rw [getopt.eq_def]
  split <;> simp_all
  rename_i hx heq
  exact absurd heq.1.symm (hx _ _)

theorem getopt_output (v : Str) (rest : List Str) :
    getopt (lit "--output" :: v :: rest) = (getopt rest).map fun r => ((lit "output", some v) :: r.1, r.2) := by
  simp [getopt, lit, imgOption]

theorem getopt_add (rest : List Str) :
    getopt (lit "--add" :: rest) = (getopt rest).map fun r => ((lit "add", none) :: r.1, r.2) := by
  simp only [lit, getopt, imgOption]
  cases rest <;> rfl

theorem getopt_plain2 {a b : Str} (ha : PlainArg a) (hb : PlainArg b) : getopt [a, b] = some ([], [a, b]) := by
  simp [getopt_plain ha, getopt_plain hb, getopt]

theorem getopt_plain1 {a : Str} (ha : PlainArg a) : getopt [a] = some ([], [a]) := by
  simp [getopt_plain ha, getopt]

theorem plain_nat (n : Nat) : PlainArg (fmtInt n) := by
  intro h
  have : (Char.isDigit '-') = true :=
    Nat.isDigit_of_mem_toDigits (b := 10) (n := n) (by decide) (by decide) (List.mem_of_mem_head? h)
  simp at this

/-- C78: `qemu-img create` gets the format, the backing file, and the size that were asked for. -/
theorem C78_create {path fmt : Str} {size : Option Nat} {backingFile backingFormat : Option Str} {quiet : Bool}
    (hp : PlainArg path) :
    imgCommand (createCmd path fmt size backingFile backingFormat quiet) = some (lit "create",
      [(lit "f", some fmt)] ++
        (if backingFile.getD [] ≠ [] then [(lit "b", backingFile)] ++
          (if backingFormat.getD [] ≠ [] then [(lit "F", backingFormat)] else []) else []) ++
        (if quiet then [(lit "q", none)] else []),
      path :: (size.map fun n => fmtInt n).toList) := by
  have hf := getopt_value 'f' (by decide) (by decide)
  have hb := getopt_value 'b' (by decide) (by decide)
  have hF := getopt_value 'F' (by decide) (by decide)
  have hq := getopt_flag 'q' (by decide) (by decide)
  have e : getopt (path :: (size.map fun n => fmtInt n).toList) = some ([], path :: (size.map fun n => fmtInt n).toList) := by
    rw [getopt_plain hp]
    cases size with
    | none => simp [getopt]
    | some n => simp [getopt_plain (plain_nat n), getopt]
  unfold createCmd imgCommand
  rcases backingFile with _ | _ | ⟨b, bs⟩ <;> rcases backingFormat with _ | _ | ⟨f, fs⟩ <;> cases quiet <;>
    cases size <;> simp_all [lit]

/-- C78: `qemu-img convert` -/
theorem C78_convert {src dst srcFmt dstFmt : Str} {progress compressed : Bool} (hs : PlainArg src) (hd : PlainArg dst) :
    imgCommand (convertCmd src dst srcFmt dstFmt progress compressed) = some (lit "convert",
      [(lit "f", some srcFmt), (lit "O", some dstFmt)] ++ (if progress then [(lit "p", none)] else []) ++
        (if compressed then [(lit "c", none)] else []), [src, dst]) := by
  have hf := getopt_value 'f' (by decide) (by decide)
  have hO := getopt_value 'O' (by decide) (by decide)
  have hp := getopt_flag 'p' (by decide) (by decide)
  have hc := getopt_flag 'c' (by decide) (by decide)
  have e := getopt_plain2 hs hd
  unfold convertCmd imgCommand
  cases progress <;> cases compressed <;> simp_all [lit]

/-- C78: `qemu-img rebase` -/
theorem C78_rebase {path backing backingFmt : Str} (hp : PlainArg path) :
    imgCommand (rebaseCmd path backing backingFmt) = some (lit "rebase",
      [(lit "u", none), (lit "b", some backing), (lit "F", some backingFmt)], [path]) := by
  have hu := getopt_flag 'u' (by decide) (by decide)
  have hb := getopt_value 'b' (by decide) (by decide)
  have hF := getopt_value 'F' (by decide) (by decide)
  have e := getopt_plain1 hp
  unfold rebaseCmd imgCommand
  simp_all [lit]

/-- C78: `qemu-img info` -/
theorem C78_info_command {path : Str} (hp : PlainArg path) :
    imgCommand (infoCmd path) = some (lit "info", [(lit "output", some (lit "json"))], [path]) := by
  have ho := getopt_output
  have e := getopt_plain1 hp
  unfold infoCmd imgCommand
  simp_all [lit]

/-- C78: `qemu-img measure` -/
theorem C78_measure_command {path outFmt : Str} (hp : PlainArg path) :
    imgCommand (measureCmd path outFmt) =
      some (lit "measure", [(lit "output", some (lit "json")), (lit "O", some outFmt)], [path]) := by
  have ho := getopt_output
  have hO := getopt_value 'O' (by decide) (by decide)
  have e := getopt_plain1 hp
  unfold measureCmd imgCommand
  simp_all [lit]

/-- C78: `qemu-img compare` -/
theorem C78_compare_command {a b : Str} {format1 format2 : Option Str} {strict : Bool} (ha : PlainArg a) (hb : PlainArg b) :
    imgCommand (compareCmd a b format1 format2 strict) = some (lit "compare",
      (if strict then [(lit "s", none)] else []) ++
        (if format1.getD [] ≠ [] then [(lit "f", format1)] else []) ++
        (if format2.getD [] ≠ [] then [(lit "F", format2)] else []), [a, b]) := by
  have hf := getopt_value 'f' (by decide) (by decide)
  have hF := getopt_value 'F' (by decide) (by decide)
  have hs := getopt_flag 's' (by decide) (by decide)
  have e := getopt_plain2 ha hb
  unfold compareCmd imgCommand
  rcases format1 with _ | _ | ⟨x, xs⟩ <;> rcases format2 with _ | _ | ⟨y, ys⟩ <;> cases strict <;>
    simp_all [lit, shortOpt]

/-- C78: `qemu-img bitmap` -/
theorem C78_bitmap {path bitmap : Str} (hp : PlainArg path) (hb : PlainArg bitmap) :
    imgCommand (bitmapAddCmd path bitmap) = some (lit "bitmap", [(lit "add", none)], [path, bitmap]) := by
  have ho := getopt_add
  have e := getopt_plain2 hp hb
  unfold bitmapAddCmd imgCommand
  simp_all [lit]

/-- C78: a file whose name begins with a dash is taken for an option: the size is taken for the name of
the file. -/
theorem C78_counterexample_dash : ∃ (path fmt : Str) (size : Nat),
    imgCommand (createCmd path fmt (some size) none none false) =
      some (lit "create", [(lit "f", some fmt), (lit "q", none)], [fmtInt size]) :=
  ⟨lit "-q", lit "qcow2", 512, by decide +kernel⟩

/-- C78: a comparison returns exactly when the images are equal, and tells a difference from an image that
cannot be opened and from other failures. -/
theorem C78_compare (code : Int) :
    (compareResult code = .ok () ↔ code = 0) ∧
    (compareResult code = .error (.exception "ContentMismatch") ↔ code = 1) ∧
    (compareResult code = .error (.exception "OpenImageError") ↔ code = 2) ∧
    (compareResult code = .error (.exception "RuntimeError") ↔ code ≠ 0 ∧ code ≠ 1 ∧ code ≠ 2) := by
  unfold compareResult
  by_cases h0 : code = 0
  · simp [h0]
  · by_cases h1 : code = 1
    · simp [h1]
    · by_cases h2 : code = 2
      · simp [h2]
      · simp [h0, h1, h2]

/-! ## Information about an image -/

/-- The bytes of the image that qemu opens by this name, in the world of the files. -/
def NamesBytes (W : World τ) (files : Str → Bytes) (name : Str) (bytes : Bytes) : Prop :=
  match imageName name with
  | .file path => bytes = files path
  | .json text => ∃ nodes r, text = W.dumps nodes ∧ jsonField "driver" nodes = none ∧
      (jsonField "file" nodes).bind (view (fun f => (files f).length) 3) = some (.raw r) ∧ bytes = r.bytes files
  | .protocol _ _ => False

/-- qemu-img is honest: `info` reports the format that it finds in the bytes of the image, and no fields
of imageio. -/
def HonestInfo (W : World τ) (files : Str → Bytes) (probe : Bytes → Str) : Prop :=
  ∀ cmd name bytes out d, imgCommand cmd = some ("info".toList, [("output".toList, some "json".toList)], [name]) →
    NamesBytes W files name bytes → W.qemuImg cmd = .ok (0, out) → W.loads out = .ok d →
    d.get "format".toList = some (.str (probe bytes)) ∧ d.get "member-offset".toList = none ∧
      d.get "member-size".toList = none

/-- The file is an archive of these files, not compressed, and `tarfile` finds them. -/
structure TarOf (W : World τ) (files : Str → Bytes) (filename : Str) (header : TarEntry → Bytes) (es : List TarEntry) : Prop where
  bytes : ∃ tail, files filename = tarBytes header es ++ tail
  found : W.tar filename = .ok ((tarPlaces header 0 es).map fun p => ⟨p.1, p.2.1, p.2.2⟩)

theorem query_ok {W : World τ} {cmd : List Str} {d : Dict} (h : W.query cmd = .ok d) :
    ∃ out, W.qemuImg cmd = .ok (0, out) ∧ W.loads out = .ok d := by
  unfold World.query checkCode at h
  cases hq : W.qemuImg cmd with
  | error e => simp [hq] at h
  | ok r =>
    obtain ⟨code, out⟩ := r
    by_cases hc : code = 0
    · subst hc
      simp only [hq, if_true] at h
      exact ⟨out, rfl, h⟩
    · simp [hq, hc] at h

theorem get_map (d : Dict) (k : Str) (v : Json) (k' : Str) :
    Dict.get (d.map fun f => if f.1 = k then (k, v) else f) k' =
      if k' = k then (if d.any fun f => f.1 = k then some v else none) else d.get k' := by
  unfold Dict.get
  induction d with
  | nil => simp
  | cons f d ih =>
    by_cases hf : f.1 = k
    · by_cases hk : k' = k
      · simp [hf, hk]
      · have hk' : ¬ k = k' := fun h => hk h.symm
        simp only [List.map_cons, hf, if_true, List.find?_cons, hk', decide_false, ih, if_neg hk]
    · simp only [List.map_cons, hf, if_false, List.find?_cons, List.any_cons, decide_false, Bool.false_or]
      by_cases hk : f.1 = k'
      · have : ¬ k' = k := fun h => hf (hk.trans h)
        simp [hk, this]
      · simp only [hk, decide_false, ih]

theorem dict_get_set (d : Dict) (k : Str) (v : Json) (k' : Str) :
    (d.set k v).get k' = if k' = k then some v else d.get k' := by
  unfold Dict.set
  by_cases ha : (d.any fun f => f.1 = k) = true
  · rw [if_pos ha, get_map, if_pos ha]
  · rw [if_neg ha]
    unfold Dict.get
    rw [List.find?_append]
    have hn : k' = k → (d.find? fun f => f.1 = k') = none := by
      rintro rfl
      rw [List.find?_eq_none]
      intro f hf hk
      exact ha (List.any_eq_true.2 ⟨f, hf, hk⟩)
    by_cases hk : k' = k
    · rw [hn hk]
      simp [hk]
    · rw [if_neg hk]
      have : ¬ k = k' := fun h => hk h.symm
      simp [this]

/-- C78: the information about a whole image. -/
theorem C78_info {W : World τ} {files : Str → Bytes} {probe : Bytes → Str} (hi : HonestInfo W files probe)
    {filename : Str} (hp : PlainArg filename) (hn : imageName filename = .file filename) {d : Dict}
    (h : info W filename none = .ok d) :
    d.get (lit "format") = some (.str (probe (files filename))) ∧ d.get (lit "member-offset") = none ∧
      d.get (lit "member-size") = none := by
  obtain ⟨out, h1, h2⟩ := query_ok (W := W) (cmd := infoCmd filename) h
  exact hi _ filename _ out d (C78_info_command hp) (by simp [NamesBytes, hn]) h1 h2

/-- The last file with this name, its place and the bytes there. -/
theorem tarPlaces_bytes (header : TarEntry → Bytes) (es : List TarEntry) (start : Nat) (before tail : Bytes)
    (hs : before.length = start) :
    List.Forall₂ (fun p e => p.1 = e.name ∧ p.2.2 = e.data.length ∧
      p.2.1 + p.2.2 ≤ (before ++ tarBytes header es ++ tail).length ∧
      ((before ++ tarBytes header es ++ tail).drop p.2.1).take p.2.2 = e.data) (tarPlaces header start es) es := by
  induction es generalizing start before with
  | nil => exact .nil
  | cons e es ih =>
    refine .cons ⟨rfl, rfl, ?_, ?_⟩ ?_
    · simp only [tarBytes, List.length_append]
      omega
    · have e1 : before ++ tarBytes header (e :: es) ++ tail =
          (before ++ header e) ++ (e.data ++ (zeros (tarPad e.data.length) ++ tarBytes header es ++ tail)) := by
        simp only [tarBytes, List.append_assoc]
      rw [e1, List.drop_left' (by rw [List.length_append, hs]), List.take_left' rfl]
    · have := ih (start + (header e ++ e.data ++ zeros (tarPad e.data.length)).length)
        (before ++ (header e ++ e.data ++ zeros (tarPad e.data.length))) (by rw [List.length_append, hs])
      have e1 : before ++ tarBytes header (e :: es) ++ tail =
          before ++ (header e ++ e.data ++ zeros (tarPad e.data.length)) ++ tarBytes header es ++ tail := by
        simp only [tarBytes, List.append_assoc]
      rw [e1]
      exact this

theorem forall₂_find_last {α β : Type} {R : α → β → Prop} {p : α → Bool} {q : β → Bool} {l : List α} {m : List β}
    (h : List.Forall₂ R l m) (hpq : ∀ a b, R a b → p a = q b) :
    (l.reverse.find? p = none ∧ m.reverse.find? q = none) ∨
      ∃ a b, l.reverse.find? p = some a ∧ m.reverse.find? q = some b ∧ R a b := by
  induction h with
  | nil => exact .inl ⟨rfl, rfl⟩
  | @cons a b l m hab _ ih =>
    simp only [List.reverse_cons, List.find?_append]
    rcases ih with ⟨h1, h2⟩ | ⟨x, y, h1, h2, h3⟩
    · rw [h1, h2]
      simp only [List.find?_cons, List.find?_nil, Option.none_or, hpq a b hab]
      cases hq : q b
      · exact .inl ⟨rfl, rfl⟩
      · exact .inr ⟨a, b, rfl, rfl, hab⟩
    · exact .inr ⟨x, y, by simp [h1], by simp [h2], h3⟩

/-- The member that is found is the last file with the name, with its place. -/
theorem findMember_tar {W : World τ} {files : Str → Bytes} {filename : Str} {header : TarEntry → Bytes}
    {es : List TarEntry} (ht : TarOf W files filename header es) (name : Str) :
    (es.reverse.find? (fun e => e.name = name) = none ∧
      findMember W filename name = .error (.exception "KeyError")) ∨
    ∃ e offset, es.reverse.find? (fun e => e.name = name) = some e ∧
      findMember W filename name = .ok (offset, e.data.length) ∧
      offset + e.data.length ≤ (files filename).length ∧ ((files filename).drop offset).take e.data.length = e.data := by
  obtain ⟨⟨tail, hb⟩, hf⟩ := ht
  have hp := tarPlaces_bytes header es 0 [] tail rfl
  rw [List.nil_append, ← hb] at hp
  have hp' : List.Forall₂ (fun (m : Member) (e : TarEntry) => m.name = e.name ∧ m.size = e.data.length ∧
      m.offsetData + m.size ≤ (files filename).length ∧ ((files filename).drop m.offsetData).take m.size = e.data)
      ((tarPlaces header 0 es).map fun p => ⟨p.1, p.2.1, p.2.2⟩) es := by
    rw [List.forall₂_map_left_iff]
    exact hp
  unfold findMember
  rw [hf]
  simp only
  rcases forall₂_find_last (p := fun m : Member => decide (m.name = name)) (q := fun e : TarEntry => decide (e.name = name)) hp'
    (fun a b h => by rw [h.1]) with ⟨h1, h2⟩ | ⟨m, e, h1, h2, -, h3, h4, h5⟩
  · rw [h1]
    exact .inl ⟨h2, rfl⟩
  · rw [h1]
    rw [h3] at h4 h5
    exact .inr ⟨e, m.offsetData, h2, by simp only [h3], h4, h5⟩

theorem describe_member {W : World τ} {cmd : Str → List Str} {filename name : Str} (hne : name ≠ []) :
    describe W cmd filename (some name) = match findMember W filename name with
      | .error e => .error e
      | .ok (offset, size) =>
        match W.query (cmd (memberUri W filename offset size)) with
        | .error e => .error e
        | .ok d => .ok ((d.set (lit "member-offset") (.int offset)).set (lit "member-size") (.int size)) := by
  cases name with
  | nil => exact absurd rfl hne
  | cons c cs => rfl

/-- C78: a member that is not in the archive is an error, for the information and for the measurement. -/
theorem C78_no_member {W : World τ} {files : Str → Bytes} {filename : Str} {header : TarEntry → Bytes}
    {es : List TarEntry} (ht : TarOf W files filename header es) {name : Str} (hne : name ≠ [])
    (h : ∀ e ∈ es, e.name ≠ name) (fmt : Str) :
    info W filename (some name) = .error (.exception "KeyError") ∧
      measure W filename fmt (some name) = .error (.exception "KeyError") := by
  have hn : es.reverse.find? (fun e => e.name = name) = none := by
    rw [List.find?_eq_none]
    intro e he
    simpa using h e (by simpa using he)
  have key : ∀ cmd, describe W cmd filename (some name) = .error (.exception "KeyError") := by
    intro cmd
    rcases findMember_tar ht name with ⟨-, h2⟩ | ⟨e, o, h1, -⟩
    · rw [describe_member hne, h2]
    · rw [hn] at h1
      cases h1
  exact ⟨key _, key _⟩

theorem memberUri_names {W : World τ} {files : Str → Bytes} {filename : Str} {o : Nat} {data : Bytes}
    (h3 : o + data.length ≤ (files filename).length) (h4 : ((files filename).drop o).take data.length = data) :
    NamesBytes W files (memberUri W filename o data.length) data := by
  have hin : (⟨filename, o, data.length⟩ : Region).Inside (fun f => (files f).length) := by
    refine ⟨by simp, by simp, ?_⟩
    simp only
    omega
  have hb : (⟨filename, o, data.length⟩ : Region).bytes files = data := by
    simp only [Region.bytes, Int.toNat_natCast]
    exact h4
  obtain ⟨j1, j2⟩ := C63_json_uri filename o data.length _ hin
  unfold NamesBytes memberUri
  have : imageName (lit "json:" ++ W.dumps (jsonUri filename o data.length)) =
      .json (W.dumps (jsonUri filename o data.length)) := by
    simp [imageName, lit]
  rw [this]
  exact ⟨_, _, rfl, j2, j1, hb.symm⟩

/-- C78: the information about a member is that of qemu-img about exactly the bytes of the member, the last
one with this name, with its place in the archive. -/
theorem C78_member {W : World τ} {files : Str → Bytes} {probe : Bytes → Str} (hi : HonestInfo W files probe)
    {filename : Str} {header : TarEntry → Bytes} {es : List TarEntry} (ht : TarOf W files filename header es)
    {name : Str} (hne : name ≠ []) {d : Dict} (h : info W filename (some name) = .ok d) :
    ∃ e offset size, es.reverse.find? (fun e => e.name = name) = some e ∧
      d.get (lit "member-offset") = some (.int offset) ∧ d.get (lit "member-size") = some (.int size) ∧
      (⟨filename, offset, size⟩ : Region).Inside (fun f => (files f).length) ∧
      (⟨filename, offset, size⟩ : Region).bytes files = e.data ∧
      d.get (lit "format") = some (.str (probe e.data)) := by
  unfold info at h
  rw [describe_member hne] at h
  · rcases findMember_tar ht name with ⟨-, h2⟩ | ⟨e, o, h1, h2, h3, h4⟩
    · simp [h2] at h
    · simp only [h2] at h
      cases hq : W.query (infoCmd (memberUri W filename o e.data.length)) with
      | error e => simp [hq] at h
      | ok d0 =>
        simp only [hq, Except.ok.injEq] at h
        subst h
        obtain ⟨out, q1, q2⟩ := query_ok hq
        have hin : (⟨filename, o, e.data.length⟩ : Region).Inside (fun f => (files f).length) := by
          refine ⟨by simp, by simp, ?_⟩
          simp only
          omega
        have hb : (⟨filename, o, e.data.length⟩ : Region).bytes files = e.data := by
          simp only [Region.bytes, Int.toNat_natCast]
          exact h4
        have hnames : NamesBytes W files (memberUri W filename o e.data.length) e.data := memberUri_names h3 h4
        obtain ⟨g1, -, -⟩ := hi _ _ _ out d0 (C78_info_command (by simp [PlainArg, memberUri, lit])) hnames q1 q2
        refine ⟨e, o, e.data.length, h1, ?_, ?_, hin, hb, ?_⟩
        · rw [dict_get_set, if_neg (by decide), dict_get_set, if_pos rfl]
        · rw [dict_get_set, if_pos rfl]
        · rw [dict_get_set, if_neg (by decide), dict_get_set, if_neg (by decide)]
          exact g1

/-- C78: the measurement of a member is that of qemu-img for exactly the bytes of the member and the wanted
format. -/
theorem C78_measure_member {W : World τ} {files : Str → Bytes}
    {filename : Str} {header : TarEntry → Bytes} {es : List TarEntry} (ht : TarOf W files filename header es)
    {name fmt : Str} (hne : name ≠ []) {d : Dict} (h : measure W filename fmt (some name) = .ok d) :
    ∃ e image out d0, es.reverse.find? (fun e => e.name = name) = some e ∧ NamesBytes W files image e.data ∧
      imgCommand (measureCmd image fmt) =
        some (lit "measure", [(lit "output", some (lit "json")), (lit "O", some fmt)], [image]) ∧
      W.qemuImg (measureCmd image fmt) = .ok (0, out) ∧ W.loads out = .ok d0 ∧
      ∀ k, k ≠ lit "member-offset" → k ≠ lit "member-size" → d.get k = d0.get k := by
  unfold LocalImage.measure at h
  rw [describe_member hne] at h
  rcases findMember_tar ht name with ⟨-, h2⟩ | ⟨e, o, h1, h2, h3, h4⟩
  · simp [h2] at h
  · simp only [h2] at h
    cases hq : W.query (measureCmd (memberUri W filename o e.data.length) fmt) with
    | error e => simp [hq] at h
    | ok d0 =>
      simp only [hq, Except.ok.injEq] at h
      subst h
      obtain ⟨out, q1, q2⟩ := query_ok hq
      refine ⟨e, _, out, d0, h1, memberUri_names h3 h4, C78_measure_command (by simp [PlainArg, memberUri, lit]), q1, q2,
        fun k k1 k2 => ?_⟩
      rw [dict_get_set, if_neg k2, dict_get_set, if_neg k1]

/-- C78: the other fields are those of qemu-img. -/
theorem C78_fields {W : World τ} {filename name fmt : Str} (hne : name ≠ []) {d : Dict} :
    (info W filename (some name) = .ok d → ∃ path d0, W.query (infoCmd path) = .ok d0 ∧
      ∀ k, k ≠ lit "member-offset" → k ≠ lit "member-size" → d.get k = d0.get k) ∧
    (measure W filename fmt (some name) = .ok d → ∃ path d0, W.query (measureCmd path fmt) = .ok d0 ∧
      ∀ k, k ≠ lit "member-offset" → k ≠ lit "member-size" → d.get k = d0.get k) := by
  have key : ∀ cmd : Str → List Str, describe W cmd filename (some name) = .ok d → ∃ path d0, W.query (cmd path) = .ok d0 ∧
      ∀ k, k ≠ lit "member-offset" → k ≠ lit "member-size" → d.get k = d0.get k := by
    intro cmd h
    rw [describe_member hne] at h
    · cases hm : findMember W filename name with
      | error e => simp [hm] at h
      | ok r =>
        obtain ⟨o, n⟩ := r
        simp only [hm] at h
        cases hq : W.query (cmd (memberUri W filename o n)) with
        | error e => simp [hq] at h
        | ok d0 =>
          simp only [hq, Except.ok.injEq] at h
          subst h
          refine ⟨_, d0, hq, fun k h1 h2 => ?_⟩
          rw [dict_get_set, if_neg h2, dict_get_set, if_neg h1]
  exact ⟨key _, key _⟩

/-! ## What an opened source shows -/

/-- A new connection to a server that follows the protocol, with a readable export that is not empty, and
its extents. -/
structure ReadySource (E : NbdWire.Env τ) (s : NbdWire.State τ) : Prop where
  protocol : Protocol E.server E.ss
  sane : E.ss.Sane
  rest : s.conn.rest = []
  size : s.size = (E.server.image s.srv).length
  pos : 0 < s.size
  block : 0 < E.ss.minBlock
  flush : E.ss.transmissionFlags.testBit 2
  aligned : s.size % E.ss.minBlock = 0
  extents : ∃ meta_, Reports E.server E.ss meta_ ∧ ZeroFlags E.server meta_

/-- qemu-nbd is honest: the export is what the block nodes of the command show. -/
def HonestNbd (W : World τ) (files : Str → Bytes) (qcow2 : Str → Bytes → Bool → Bytes) : Prop :=
  ∀ srv E s, W.openNbd srv = .ok (E, s) → ReadySource E s ∧
    ∀ b v, view (fun f => (files f).length) 3 (srv.nodes b) = some v →
      E.server.image s.srv = v.content files qcow2

/-- What the guest sees of an image in these bytes: for raw the bytes, for qcow2 the content with the
backing chain or without. -/
def Guest (qcow2 : Str → Bytes → Bool → Bytes) (filename fmt : Str) (bytes : Bytes) (chain : Bool) (content : Bytes) : Prop :=
  (fmt = "raw".toList ∧ content = bytes) ∨ (fmt = "qcow2".toList ∧ content = qcow2 filename bytes chain)

theorem openSource_ok {W : World τ} {sock : Url.Address} {filename : Str} {member : Option Str} {shared : Int}
    {bitmap : Option Str} {chain : Bool} {E : NbdWire.Env τ} {s : NbdWire.State τ}
    (h : openSource W sock filename member shared bitmap chain = .ok (E, s)) :
    ∃ d srv, info W filename member = .ok d ∧ sourceServer sock filename d shared bitmap chain = .ok srv ∧
      W.openNbd srv = .ok (E, s) := by
  unfold openSource at h
  cases hd : info W filename member with
  | error e => simp [hd] at h
  | ok d =>
    simp only [hd] at h
    cases hs : sourceServer sock filename d shared bitmap chain with
    | error e => simp [hs] at h
    | ok srv =>
      simp only [hs] at h
      exact ⟨d, srv, rfl, hs, h⟩

theorem whole_bytes (files : Str → Bytes) (f : Str) (n : Int) (hn : n = (files f).length) :
    (⟨f, 0, n⟩ : Region).bytes files = files f := by
  subst hn
  simp [Region.bytes]

/-- C78: an open source of a whole image shows what the guest of the image sees. -/
theorem C78_source {W : World τ} {files : Str → Bytes} {probe : Bytes → Str} {qcow2 : Str → Bytes → Bool → Bytes}
    (hi : HonestInfo W files probe) (hn : HonestNbd W files qcow2) {sock : Url.Address} {filename : Str}
    (hp : PlainArg filename) (hf : imageName filename = .file filename) {shared : Int} {bitmap : Option Str}
    {chain : Bool} {E : NbdWire.Env τ} {s : NbdWire.State τ}
    (h : openSource W sock filename none shared bitmap chain = .ok (E, s))
    (hk : probe (files filename) = lit "raw" ∨ probe (files filename) = lit "qcow2") :
    ReadySource E s ∧ Guest qcow2 filename (probe (files filename)) (files filename) chain (E.server.image s.srv) := by
  obtain ⟨d, srv, h1, h2, h3⟩ := openSource_ok h
  obtain ⟨g1, g2, g3⟩ := C78_info hi hp hf h1
  obtain ⟨r1, r2⟩ := hn _ _ _ h3
  refine ⟨r1, ?_⟩
  unfold sourceServer at h2
  rw [g1, g2, g3] at h2
  simp only [Except.ok.injEq] at h2
  subst h2
  rcases hk with hk | hk
  · refine .inl ⟨hk, ?_⟩
    rw [r2 true _ ((C63_raw _ _ true hk).1 (by simp [askedRegion, Region.Inside, intOf]))]
    simp only [View.content, askedRegion, intOf, Option.getD_none]
    exact whole_bytes files filename _ (by simp)
  · refine .inr ⟨hk, ?_⟩
    rw [r2 true _ (C63_qcow2 _ _ true hk rfl rfl)]
    simp only [View.content]
    rw [whole_bytes files filename _ rfl]

/-- C78: an open source of a member of an archive shows what the guest of this member sees, always with the
backing chain that the member names. -/
theorem C78_source_member {W : World τ} {files : Str → Bytes} {probe : Bytes → Str} {qcow2 : Str → Bytes → Bool → Bytes}
    (hi : HonestInfo W files probe) (hn : HonestNbd W files qcow2) {sock : Url.Address} {filename : Str}
    {header : TarEntry → Bytes} {es : List TarEntry} (ht : TarOf W files filename header es)
    {name : Str} (hne : name ≠ []) {shared : Int} {bitmap : Option Str}
    {chain : Bool} {E : NbdWire.Env τ} {s : NbdWire.State τ}
    (h : openSource W sock filename (some name) shared bitmap chain = .ok (E, s)) :
    ReadySource E s ∧ ∃ e, es.reverse.find? (fun e => e.name = name) = some e ∧
      (probe e.data = lit "raw" ∨ probe e.data = lit "qcow2" →
        Guest qcow2 filename (probe e.data) e.data true (E.server.image s.srv)) := by
  obtain ⟨d, srv, h1, h2, h3⟩ := openSource_ok h
  obtain ⟨e, offset, size, f1, g1, g2, g3, g4, g5⟩ := C78_member hi ht hne h1
  obtain ⟨r1, r2⟩ := hn _ _ _ h3
  refine ⟨r1, e, f1, fun hk => ?_⟩
  unfold sourceServer at h2
  rw [g1, g2, g5] at h2
  simp only [Except.ok.injEq] at h2
  subst h2
  rcases hk with hk | hk
  · refine .inl ⟨hk, ?_⟩
    rw [r2 true _ ((C63_raw _ _ true hk).1 (by simpa [askedRegion, intOf] using g3))]
    simpa only [View.content, askedRegion, intOf, Option.getD_some] using g4
  · refine .inr ⟨hk, ?_⟩
    rw [r2 true _ ((C63_qcow2_range_partial _ _ true hk (by simp [intOf])).1 (by simpa [askedRegion, intOf] using g3))]
    simp only [View.content, askedRegion, intOf, Option.getD_some]
    rw [g4]

/-! ## Extents and checksums -/

theorem wire_fullReads (E : NbdWire.Env τ) (hp : Protocol E.server E.ss) (hb : 0 < E.ss.minBlock)
    (hf : E.ss.transmissionFlags.testBit 2) : Blkhash.FullReads (NbdWire.lawful E hp hb hf) (fun _ => True) := by
  constructor
  · intros; trivial
  · intros; trivial
  · intro s n d s' hi _ _ _ hsz h
    have h1 := (C58_read E hp s s' n d hi.rest hi.size h).1
    have h2 : s.size = (E.server.image s.srv).length := hi.size
    have h3 : s.pos + n ≤ s.size := hsz
    omega

theorem load_bytes (b : Bytes) : load (byteAt b) 0 b.length = b := by
  apply List.ext_getElem
  · simp [load]
  · intro i h1 h2
    simp [load, byteAt, h2]

/-- C78: the extents of an open source cover the image, and what they call zero is zero. -/
theorem C78_extents {W : World τ} {sock : Url.Address} {filename : Str} {member : Option Str} {es : List ZeroExtent}
    {files : Str → Bytes} {qcow2 : Str → Bytes → Bool → Bytes} (hn : HonestNbd W files qcow2)
    (h : zeroExtents W sock filename member = .ok es) :
    ∃ E s, openSource W sock filename member 1 none true = .ok (E, s) ∧
      Complete es (E.server.image s.srv).length ∧ Truthful es (byteAt (E.server.image s.srv)) := by
  unfold LocalImage.zeroExtents at h
  cases ho : openSource W sock filename member 1 none true with
  | error e => simp [ho] at h
  | ok r =>
    obtain ⟨E, s⟩ := r
    simp only [ho] at h
    obtain ⟨-, srv, -, -, hs⟩ := openSource_ok ho
    obtain ⟨hr, -⟩ := hn _ _ _ hs
    obtain ⟨meta_, hm, hz⟩ := hr.extents
    cases hx : NbdWire.zeroExtents E s with
    | mk r s' =>
      rw [hx] at h
      simp only at h
      subst h
      obtain ⟨h1, h2⟩ := C62_zero E hr.protocol meta_ hm hz hr.sane s s' hr.rest hr.size hr.pos es hx
      refine ⟨E, s, rfl, ?_, fun z hz1 hz2 i hi => h2 z hz1 hz2 i hi.1 hi.2⟩
      unfold Complete
      rw [← hr.size]
      exact h1

/-- C78: the dirty extents of an open source cover the image, and tell for every byte whether it is dirty in
the bitmap that was asked for. -/
theorem C78_dirty {W : World τ} {sock : Url.Address} {filename bitmap : Str} {member : Option Str} {es : List DirtyExtent}
    {files : Str → Bytes} {qcow2 : Str → Bytes → Bool → Bytes} (hn : HonestNbd W files qcow2)
    (h : dirtyExtents W sock filename member bitmap = .ok es) :
    ∃ E s srv, openSource W sock filename member 1 (some bitmap) true = .ok (E, s) ∧
      W.openNbd srv = .ok (E, s) ∧ srv.bitmap = some bitmap ∧
      Tiles 0 (es.map fun z => (z.start, z.length)) (E.server.image s.srv).length ∧
      ∀ meta_, Reports E.server E.ss meta_ → ∃ b, E.ss.dirtyBitmap = some b ∧
        ∀ z ∈ es, ∀ k, z.start ≤ k → k < z.start + z.length →
          z.dirty = (meta_ s.srv b k).testBit 0 ∧ z.zero = (meta_ s.srv "base:allocation" k).testBit 1 := by
  unfold LocalImage.dirtyExtents at h
  cases ho : openSource W sock filename member 1 (some bitmap) true with
  | error e => simp [ho] at h
  | ok r =>
    obtain ⟨E, s⟩ := r
    simp only [ho] at h
    obtain ⟨d, srv, -, hsrv, hs⟩ := openSource_ok ho
    obtain ⟨hr, -⟩ := hn _ _ _ hs
    obtain ⟨meta_, hm, -⟩ := hr.extents
    cases hx : NbdWire.dirtyExtents E s with
    | mk r s' =>
      rw [hx] at h
      simp only at h
      subst h
      refine ⟨E, s, srv, rfl, hs, ?_, ?_, fun meta_ hm => ?_⟩
      · unfold sourceServer at hsrv
        split at hsrv
        · cases hsrv
          rfl
        · cases hsrv
      · rw [← hr.size]
        exact (C62_dirty E hr.protocol meta_ hm hr.sane s s' hr.rest hr.size hr.pos es hx).1
      · exact (C62_dirty E hr.protocol meta_ hm hr.sane s s' hr.rest hr.size hr.pos es hx).2

theorem checksum_ok {W : World τ} {sock : Url.Address} {filename : Str} {member : Option Str} {blockSize : Nat}
    {func : Bytes → Bytes} {detect : Bool} {d : Bytes}
    {files : Str → Bytes} {qcow2 : Str → Bytes → Bool → Bytes} (hn : HonestNbd W files qcow2)
    (hb : 0 < blockSize) (hbs : ∀ srv E s, W.openNbd srv = .ok (E, s) → blockSize % E.ss.minBlock = 0)
    (h : checksum W sock filename member blockSize func detect = .ok d) :
    ∃ E s, openSource W sock filename member 1 none true = .ok (E, s) ∧
      d = blockChecksum func blockSize (E.server.image s.srv) := by
  unfold checksum at h
  cases ho : openSource W sock filename member 1 none true with
  | error e => simp [ho] at h
  | ok r =>
    obtain ⟨E, s⟩ := r
    simp only [ho] at h
    obtain ⟨-, srv, -, -, hs⟩ := openSource_ok ho
    obtain ⟨hr, -⟩ := hn _ _ _ hs
    obtain ⟨meta_, hm, hz⟩ := hr.extents
    cases hx : NbdWire.zeroExtents E s with
    | mk r s' =>
      rw [hx] at h
      cases r with
      | error e => simp at h
      | ok es =>
        simp only at h
        obtain ⟨h1, h2⟩ := C62_zero E hr.protocol meta_ hm hz hr.sane s s' hr.rest hr.size hr.pos es hx
        obtain ⟨u1, -, u3, u4, u5⟩ := C62_unchanged E hr.protocol meta_ hm hr.sane s s' hr.rest hr.size (.inl ⟨_, hx⟩)
        cases hop : Blkhash.opRun (NbdWire.backend E) func detect (fun _ => false) es (zeros blockSize) s' with
        | mk r st =>
          rw [hop] at h
          simp only at h
          subst h
          have hl : (zeros blockSize).length = blockSize := by simp [zeros]
          have hsz : (NbdWire.backend E).size s' = s.size := u4
          have := C22_image (wire_fullReads E hr.protocol hr.block hr.flush) (by rw [hl]; exact hb)
            (by rw [hl]; exact hbs _ _ _ hs) (s := s') ⟨u5, by rw [u4, hr.size, u1]⟩ trivial (es := es)
            ⟨by rw [hsz]; exact h1, fun e he hz1 k h3 h4 => by
              have := h2 e he hz1 k h3 h4
              simpa [NbdWire.lawful, u1] using this⟩
            (by rw [hsz]; exact hr.aligned) hop
          refine ⟨E, s, rfl, ?_⟩
          rw [this, hl, hsz]
          congr 1
          have : (NbdWire.lawful E hr.protocol hr.block hr.flush).content s' = byteAt (E.server.image s.srv) := by
            simp [NbdWire.lawful, u1]
          rw [this, hr.size]
          exact load_bytes _

/-- C78: the checksum of a local image is that of what its guest sees, whether zeroes are detected or not. -/
theorem C78_checksum {W : World τ} {files : Str → Bytes} {probe : Bytes → Str} {qcow2 : Str → Bytes → Bool → Bytes}
    (hi : HonestInfo W files probe) (hn : HonestNbd W files qcow2) {sock : Url.Address} {filename : Str}
    (hp : PlainArg filename) (hf : imageName filename = .file filename) {blockSize : Nat} (hb : 0 < blockSize)
    (hbs : ∀ srv E s, W.openNbd srv = .ok (E, s) → blockSize % E.ss.minBlock = 0)
    (hk : probe (files filename) = lit "raw" ∨ probe (files filename) = lit "qcow2")
    {func : Bytes → Bytes} {detect : Bool} {d : Bytes}
    (h : checksum W sock filename none blockSize func detect = .ok d) :
    ∃ content, Guest qcow2 filename (probe (files filename)) (files filename) true content ∧
      d = blockChecksum func blockSize content := by
  obtain ⟨E, s, h1, h2⟩ := checksum_ok hn hb hbs h
  exact ⟨_, (C78_source hi hn hp hf h1 hk).2, h2⟩

/-- C78: the same for a member of an archive. -/
theorem C78_checksum_member {W : World τ} {files : Str → Bytes} {probe : Bytes → Str} {qcow2 : Str → Bytes → Bool → Bytes}
    (hi : HonestInfo W files probe) (hn : HonestNbd W files qcow2) {sock : Url.Address} {filename : Str}
    {header : TarEntry → Bytes} {es : List TarEntry} (ht : TarOf W files filename header es)
    {name : Str} (hne : name ≠ []) {blockSize : Nat} (hb : 0 < blockSize)
    (hbs : ∀ srv E s, W.openNbd srv = .ok (E, s) → blockSize % E.ss.minBlock = 0)
    {func : Bytes → Bytes} {detect : Bool} {d : Bytes}
    (h : checksum W sock filename (some name) blockSize func detect = .ok d) :
    ∃ e, es.reverse.find? (fun e => e.name = name) = some e ∧
      (probe e.data = lit "raw" ∨ probe e.data = lit "qcow2" →
        ∃ content, Guest qcow2 filename (probe e.data) e.data true content ∧
          d = blockChecksum func blockSize content) := by
  obtain ⟨E, s, h1, h2⟩ := checksum_ok hn hb hbs h
  obtain ⟨-, e, he, hg⟩ := C78_source_member hi hn ht hne h1
  exact ⟨e, he, fun hk => ⟨_, hg hk, h2⟩⟩

/-! ## Verifying an upload -/

theorem verify_core {W : World τ} {files : Str → Bytes} {qcow2 : Str → Bytes → Bool → Bytes}
    (hn : HonestNbd W files qcow2) {sock sock' : Url.Address} {filename : Str} {member : Option Str} {shared : Int}
    {E : NbdWire.Env τ} {s s' : NbdWire.State τ} (hE : openSource W sock filename member shared none true = .ok (E, s))
    (hsame : ∀ E' s', openSource W sock' filename member 1 none true = .ok (E', s') →
      E'.server.image s'.srv = E.server.image s.srv)
    {exts : List ZeroExtent} (hx : NbdWire.zeroExtents E s = (.ok exts, s')) {n : Int} {diskIsZero : Bool}
    {before after : Nat → Byte} (h0 : diskIsZero = true → ∀ i, before i = 0)
    (hc : Copied n (uploadActs true diskIsZero exts) (byteAt (E.server.image s.srv)) before after)
    {σ : Type} {B : Backend σ} {L : Lawful B} {F : σ → Prop} (hf : Blkhash.FullReads L F)
    (hb : 4096 % B.blockSize = 0) {a : Access} {algorithms : List Str} {funcs : Str → Bytes → Bytes}
    {ticketId : Str} {query : List (Str × Str)} {es : List ZeroExtent} {sd sd' : σ} {c c' : Conn}
    (hi : L.Inv sd) (hF : F sd) (hv : Blkhash.Valid (L.content sd) (B.size sd) es)
    (hsb : B.size sd % B.blockSize = 0) (hsz : B.size sd = (E.server.image s.srv).length)
    (hcont : ∀ i, i < B.size sd → L.content sd i = after i) {resp : Blkhash.Response}
    (hg : Blkhash.getChecksum B a algorithms funcs ticketId query es sd c = (.ok (some resp), sd', c'))
    (hbs : ∀ srv E s, W.openNbd srv = .ok (E, s) → resp.blockSize % E.ss.minBlock = 0)
    (hpos : 0 < resp.blockSize) {detect : Bool} {d : Bytes}
    (h : checksum W sock' filename member resp.blockSize (funcs resp.algorithm) detect = .ok d) :
    resp.checksum = d := by
  obtain ⟨-, srv, -, -, hs⟩ := openSource_ok hE
  obtain ⟨hr, -⟩ := hn _ _ _ hs
  obtain ⟨meta_, hm, hz⟩ := hr.extents
  obtain ⟨h1, h2⟩ := C62_zero E hr.protocol meta_ hm hz hr.sane s s' hr.rest hr.size hr.pos exts hx
  have hup := C55_upload (size := s.size) h1 (fun z hz1 hz2 i hi => h2 z hz1 hz2 i hi.1 hi.2) h0 hc
  obtain ⟨g1, -⟩ := C44_exact_partial hf hb hi hF hv hsb hg
  obtain ⟨E', s1, o1, o2⟩ := checksum_ok hn hpos hbs h
  rw [g1, o2, hsame _ _ o1]
  congr 1
  rw [hsz]
  refine Eq.trans ?_ (load_bytes _)
  apply List.ext_getElem
  · simp [load]
  · intro i i1 i2
    have hlt : i < (E.server.image s.srv).length := by simpa [load] using i1
    simp only [load, List.getElem_map, List.getElem_range, Nat.zero_add]
    rw [hcont i (by rw [hsz]; exact hlt), hup i (by rw [hr.size]; exact hlt)]

theorem guest_unique {qcow2 : Str → Bytes → Bool → Bytes} {filename fmt : Str} {bytes : Bytes} {chain : Bool}
    {a b : Bytes} (ha : Guest qcow2 filename fmt bytes chain a) (hb : Guest qcow2 filename fmt bytes chain b) : a = b := by
  rcases ha with ⟨h1, h2⟩ | ⟨h1, h2⟩ <;> rcases hb with ⟨h3, h4⟩ | ⟨h3, h4⟩
  · rw [h2, h4]
  · rw [h1] at h3
    exact absurd h3 (by decide)
  · rw [h1] at h3
    exact absurd h3 (by decide)
  · rw [h2, h4]

/-- C78: after an upload of a local image the checksum of the server for the disk is the checksum of the
client for the image (same algorithm and size of blocks, disk of the size of the image, and nobody else
wrote to the disk): comparing them never reports a good upload as bad. -/
theorem C78_verify {W : World τ} {files : Str → Bytes} {probe : Bytes → Str} {qcow2 : Str → Bytes → Bool → Bytes}
    (hin : HonestInfo W files probe) (hn : HonestNbd W files qcow2) {sock sock' : Url.Address} {filename : Str}
    (hp : PlainArg filename) (hfn : imageName filename = .file filename)
    (hk : probe (files filename) = lit "raw" ∨ probe (files filename) = lit "qcow2") {shared : Int}
    {E : NbdWire.Env τ} {s s' : NbdWire.State τ} (hE : openSource W sock filename none shared none true = .ok (E, s))
    {exts : List ZeroExtent} (hx : NbdWire.zeroExtents E s = (.ok exts, s')) {n : Int} {diskIsZero : Bool}
    {before after : Nat → Byte} (h0 : diskIsZero = true → ∀ i, before i = 0)
    (hc : Copied n (uploadActs true diskIsZero exts) (byteAt (E.server.image s.srv)) before after)
    {σ : Type} {B : Backend σ} {L : Lawful B} {F : σ → Prop} (hf : Blkhash.FullReads L F)
    (hb : 4096 % B.blockSize = 0) {a : Access} {algorithms : List Str} {funcs : Str → Bytes → Bytes}
    {ticketId : Str} {query : List (Str × Str)} {es : List ZeroExtent} {sd sd' : σ} {c c' : Conn}
    (hi : L.Inv sd) (hF : F sd) (hv : Blkhash.Valid (L.content sd) (B.size sd) es)
    (hsb : B.size sd % B.blockSize = 0) (hsz : B.size sd = (E.server.image s.srv).length)
    (hcont : ∀ i, i < B.size sd → L.content sd i = after i) {resp : Blkhash.Response}
    (hg : Blkhash.getChecksum B a algorithms funcs ticketId query es sd c = (.ok (some resp), sd', c'))
    (hbs : ∀ srv E s, W.openNbd srv = .ok (E, s) → resp.blockSize % E.ss.minBlock = 0)
    (hpos : 0 < resp.blockSize) {detect : Bool} {d : Bytes}
    (h : checksum W sock' filename none resp.blockSize (funcs resp.algorithm) detect = .ok d) :
    resp.checksum = d :=
  verify_core hn hE
    (fun _ _ ho => guest_unique (C78_source hin hn hp hfn ho hk).2 (C78_source hin hn hp hfn hE hk).2)
    hx h0 hc hf hb hi hF hv hsb hsz hcont hg hbs hpos h

/-- C78: the same for the upload of a member of an archive. -/
theorem C78_verify_member {W : World τ} {files : Str → Bytes} {probe : Bytes → Str} {qcow2 : Str → Bytes → Bool → Bytes}
    (hin : HonestInfo W files probe) (hn : HonestNbd W files qcow2) {sock sock' : Url.Address} {filename : Str}
    {header : TarEntry → Bytes} {entries : List TarEntry} (ht : TarOf W files filename header entries)
    {name : Str} (hne : name ≠ []) (hk : ∀ e ∈ entries, probe e.data = lit "raw" ∨ probe e.data = lit "qcow2") {shared : Int}
    {E : NbdWire.Env τ} {s s' : NbdWire.State τ}
    (hE : openSource W sock filename (some name) shared none true = .ok (E, s))
    {exts : List ZeroExtent} (hx : NbdWire.zeroExtents E s = (.ok exts, s')) {n : Int} {diskIsZero : Bool}
    {before after : Nat → Byte} (h0 : diskIsZero = true → ∀ i, before i = 0)
    (hc : Copied n (uploadActs true diskIsZero exts) (byteAt (E.server.image s.srv)) before after)
    {σ : Type} {B : Backend σ} {L : Lawful B} {F : σ → Prop} (hf : Blkhash.FullReads L F)
    (hb : 4096 % B.blockSize = 0) {a : Access} {algorithms : List Str} {funcs : Str → Bytes → Bytes}
    {ticketId : Str} {query : List (Str × Str)} {es : List ZeroExtent} {sd sd' : σ} {c c' : Conn}
    (hi : L.Inv sd) (hF : F sd) (hv : Blkhash.Valid (L.content sd) (B.size sd) es)
    (hsb : B.size sd % B.blockSize = 0) (hsz : B.size sd = (E.server.image s.srv).length)
    (hcont : ∀ i, i < B.size sd → L.content sd i = after i) {resp : Blkhash.Response}
    (hg : Blkhash.getChecksum B a algorithms funcs ticketId query es sd c = (.ok (some resp), sd', c'))
    (hbs : ∀ srv E s, W.openNbd srv = .ok (E, s) → resp.blockSize % E.ss.minBlock = 0)
    (hpos : 0 < resp.blockSize) {detect : Bool} {d : Bytes}
    (h : checksum W sock' filename (some name) resp.blockSize (funcs resp.algorithm) detect = .ok d) :
    resp.checksum = d := by
  refine verify_core hn hE (fun E' s' ho => ?_) hx h0 hc hf hb hi hF hv hsb hsz hcont hg hbs hpos h
  obtain ⟨-, e, e1, e2⟩ := C78_source_member hin hn ht hne hE
  obtain ⟨-, e', e3, e4⟩ := C78_source_member hin hn ht hne ho
  rw [e1] at e3
  obtain rfl := Option.some.inj e3
  have hm : e ∈ entries := by
    have := List.mem_of_find?_eq_some e1
    simpa using this
  exact guest_unique (e4 (hk e hm)) (e2 (hk e hm))

theorem flatMap_digest {digest : Bytes → Bytes} {k : Nat} (hk : 0 < k) (hd : ∀ b, (digest b).length = k)
    {x y : List Bytes} (h : x.flatMap digest = y.flatMap digest) : x.map digest = y.map digest := by
  induction x generalizing y with
  | nil =>
    cases y with
    | nil => rfl
    | cons b y =>
      have := congrArg List.length h
      simp only [List.flatMap_nil, List.length_nil, List.flatMap_cons, List.length_append, hd] at this
      omega
  | cons a x ih =>
    cases y with
    | nil =>
      have := congrArg List.length h
      simp only [List.flatMap_nil, List.length_nil, List.flatMap_cons, List.length_append, hd] at this
      omega
    | cons b y =>
      simp only [List.flatMap_cons] at h
      obtain ⟨h1, h2⟩ := List.append_inj h (by rw [hd, hd])
      rw [List.map_cons, List.map_cons, h1, ih h2]

theorem map_collision {digest : Bytes → Bytes} {x y : List Bytes} (h : x.map digest = y.map digest) (hne : x ≠ y) :
    ∃ (i : Nat) (a b : Bytes), x[i]? = some a ∧ y[i]? = some b ∧ a ≠ b ∧ digest a = digest b := by
  induction x generalizing y with
  | nil =>
    cases y with
    | nil => exact absurd rfl hne
    | cons b y => simp at h
  | cons a x ih =>
    cases y with
    | nil => simp at h
    | cons b y =>
      simp only [List.map_cons, List.cons.injEq] at h
      by_cases hab : a = b
      · subst hab
        obtain ⟨i, a', b', h1, h2, h3⟩ := ih h.2 (fun he => hne (by rw [he]))
        exact ⟨i + 1, a', b', h1, h2, h3⟩
      · exact ⟨0, a, b, rfl, rfl, hab, h.1⟩

/-- C78: when the disk and the image differ but have the same checksum, the digest function has a collision
in these very data: two different blocks at the same place with one digest, or two different sequences of
the digests of the blocks with one digest. -/
theorem C78_collision {digest : Bytes → Bytes} {k : Nat} (hk : 0 < k) (hd : ∀ b, (digest b).length = k)
    {blockSize : Nat} (hb : 0 < blockSize) {disk image : Bytes} (hne : disk ≠ image)
    (h : blockChecksum digest blockSize disk = blockChecksum digest blockSize image) :
    (∃ (i : Nat) (x y : Bytes), (chunks blockSize disk)[i]? = some x ∧ (chunks blockSize image)[i]? = some y ∧ x ≠ y ∧
      digest x = digest y) ∨
    ((chunks blockSize disk).flatMap digest ≠ (chunks blockSize image).flatMap digest ∧
      digest ((chunks blockSize disk).flatMap digest) = digest ((chunks blockSize image).flatMap digest)) := by
  by_cases he : (chunks blockSize disk).flatMap digest = (chunks blockSize image).flatMap digest
  · refine .inl (map_collision (flatMap_digest hk hd he) fun hc => hne ?_)
    rw [← chunks_flatten hb disk, ← chunks_flatten hb image, hc]
  · exact .inr ⟨he, h⟩

/-- The hypotheses hold for two blocks that differ, with the digest of one byte. -/
example : blockChecksum (fun b => [b.headD 0]) 2 [1, 2, 3] = blockChecksum (fun b => [b.headD 0]) 2 [1, 5, 3] := by
  decide +kernel

/-! ## Where it goes wrong -/

/-- C78: a file with a colon in its name: qemu-img takes the name for a protocol, but qemu-nbd is told the
file.  An absolute name or `./` before it has no such problem. -/
theorem C78_counterexample_colon : ∃ filename : Str, PlainArg filename ∧
    imgCommand (infoCmd filename) = some (lit "info", [(lit "output", some (lit "json"))], [filename]) ∧
    imageName filename = .protocol (lit "disk") (lit "1.raw") ∧
    (∀ (sizes : Str → Nat) (sock : Url.Address) (b : Bool),
      view sizes 3 (QemuNbd.Server.nodes { image := filename, fmt := lit "raw", sock := sock } b) =
        some (.raw ⟨filename, 0, sizes filename⟩)) ∧
    imageName (lit "./" ++ filename) = .file (lit "./" ++ filename) := by
  refine ⟨lit "disk:1.raw", by decide, by decide +kernel, by decide +kernel, ?_, by decide +kernel⟩
  intro sizes sock b
  rw [(C63_raw _ sizes b rfl).1 (by simp [askedRegion, Region.Inside])]
  simp [askedRegion]

/-- A world with one archive; qemu-img always says "raw". -/
def oneTar (filename : Str) (places : List Member) : World Unit where
  tar f := if f = filename then .ok places else .error (.os "ENOENT")
  qemuImg _ := .ok (0, [])
  loads _ := .ok [(lit "format", .str (lit "raw"))]
  dumps _ := []
  openNbd _ := .error (.os "ENOENT")

/-- C78: `tarfile.open` decompresses a compressed archive, so that the places of the members are places in
the decompressed bytes, but the export reads there in the compressed file.  `codec` maps the file to
what is in it; the bytes of the part are not those of the member, and nothing fails. -/
theorem C78_counterexample_compressed : ∃ (W : World Unit) (files : Str → Bytes) (codec : Bytes → Bytes) (filename : Str)
    (header : TarEntry → Bytes) (e : TarEntry) (d : Dict) (offset size : Nat),
    codec (files filename) = tarBytes header [e] ∧
    W.tar filename = .ok ((tarPlaces header 0 [e]).map fun p => ⟨p.1, p.2.1, p.2.2⟩) ∧
    HonestInfo W files (fun _ => lit "raw") ∧
    info W filename (some e.name) = .ok d ∧
    d.get (lit "member-offset") = some (.int offset) ∧ d.get (lit "member-size") = some (.int size) ∧
    (⟨filename, offset, size⟩ : Region).Inside (fun f => (files f).length) ∧
    (⟨filename, offset, size⟩ : Region).bytes files ≠ e.data := by
  refine ⟨oneTar (lit "a.ova") [⟨lit "m", 1, 2⟩], fun _ => [9, 8, 7, 6], fun _ => [0, 1, 2] ++ zeros 510, lit "a.ova", fun _ => [0],
    ⟨lit "m", [1, 2]⟩, [(lit "format", .str (lit "raw")), (lit "member-offset", .int 1), (lit "member-size", .int 2)], 1, 2, by decide +kernel,
    by simp [oneTar, tarPlaces], ?_, rfl, rfl, rfl, by decide, by decide⟩
  intro cmd name bytes out d _ _ _ h
  cases h
  exact ⟨rfl, rfl, rfl⟩

/-! ## The hypotheses can hold -/

/-- The files of the sample world: an image, and an archive with two versions of it. -/
def sampleFiles (f : Str) : Bytes :=
  if f = lit "/disk" then [0, 2, 0, 0, 0, 6, 0]
  else if f = lit "/a.ova" then
    tarBytes (fun _ => zeros 512) [⟨lit "m", [1, 1]⟩, ⟨lit "m", [0, 2, 0, 0, 0, 6, 0]⟩, ⟨lit "x", [5]⟩] ++ zeros 1024
  else []

/-- A world with these files, raw for qemu-img, and the sample server. -/
def sampleWorld : World Sample where
  tar f := if f = lit "/a.ova" then .ok [⟨lit "m", 512, 2⟩, ⟨lit "m", 1536, 7⟩, ⟨lit "x", 2560, 1⟩]
    else .error (.exception "ReadError")
  qemuImg _ := .ok (0, [])
  loads _ := .ok [(lit "format", .str (lit "raw"))]
  dumps _ := []
  openNbd srv :=
    if srv.fmt = lit "raw" ∧ ((srv.image = lit "/disk" ∧ srv.offset = none ∧ srv.size = none) ∨
        (srv.image = lit "/a.ova" ∧ srv.offset = some 1536 ∧ srv.size = some 7)) then .ok (mappedEnv, mappedStart)
    else .error (.exception "RuntimeError")

theorem sampleWorld_info : HonestInfo sampleWorld sampleFiles (fun _ => lit "raw") := by
  intro cmd name bytes out d _ _ _ h
  cases h
  exact ⟨rfl, rfl, rfl⟩

theorem mapped_ready : ReadySource mappedEnv mappedStart where
  protocol := Sample.mapped_protocol
  sane := mappedSession_sane
  rest := rfl
  size := rfl
  pos := by decide
  block := by decide
  flush := by decide
  aligned := by decide
  extents := ⟨_, Sample.mapped_reports, Sample.mapped_zero⟩

theorem sampleWorld_nbd : HonestNbd sampleWorld sampleFiles (fun _ _ _ => []) := by
  intro srv E s h
  simp only [sampleWorld] at h
  split at h
  · rename_i hs
    cases h
    refine ⟨mapped_ready, fun b v hv => ?_⟩
    obtain ⟨hf, hs⟩ := hs
    have hr := C63_raw srv (fun f => (sampleFiles f).length) b hf
    rcases hs with ⟨h1, h2, h3⟩ | ⟨h1, h2, h3⟩
    · rw [hr.1 (by simp [askedRegion, Region.Inside, h1, h2, h3])] at hv
      cases hv
      simp only [View.content, askedRegion, h1, h2, h3, Option.getD_none]
      decide +kernel
    · have hv' := hr.1 (by
        simp only [askedRegion, h1, h2, h3, Option.getD_some]
        decide +kernel)
      rw [hv'] at hv
      cases hv
      simp only [View.content, askedRegion, h1, h2, h3, Option.getD_some]
      decide +kernel
  · cases h

theorem sampleWorld_tar : TarOf sampleWorld sampleFiles (lit "/a.ova") (fun _ => zeros 512)
    [⟨lit "m", [1, 1]⟩, ⟨lit "m", [0, 2, 0, 0, 0, 6, 0]⟩, ⟨lit "x", [5]⟩] where
  bytes := ⟨zeros 1024, by
    have h : ¬ lit "/a.ova" = lit "/disk" := by decide
    simp only [sampleFiles, h, if_false, if_true]⟩
  found := by decide +kernel

/-- A digest for the examples. -/
def sampleDigest (b : Bytes) : Bytes := [b.foldl (fun a x => a * 3 + x + 1) 0]

/-- The checksum of the image and that of the last member with the name are computed, and equal that of the
bytes. -/
example : PlainArg (lit "/disk") ∧ imageName (lit "/disk") = .file (lit "/disk") ∧
    checksum sampleWorld (.unix []) (lit "/disk") none 2 sampleDigest true =
      .ok (blockChecksum sampleDigest 2 [0, 2, 0, 0, 0, 6, 0]) ∧
    checksum sampleWorld (.unix []) (lit "/a.ova") (some (lit "m")) 2 sampleDigest false =
      .ok (blockChecksum sampleDigest 2 [0, 2, 0, 0, 0, 6, 0]) := by decide +kernel

/-- The extents of the member, and a member that is not in the archive. -/
example : (zeroExtents sampleWorld (.unix []) (lit "/a.ova") (some (lit "m"))).toOption.map List.length = some 5 ∧
    (info sampleWorld (lit "/a.ova") (some (lit "y"))).toOption.isNone := by decide +kernel

/-- The dirty extents of the image. -/
example : (dirtyExtents sampleWorld (.unix []) (lit "/disk") none (lit "b")).toOption.map List.length = some 7 ∧
    (measure sampleWorld (lit "/a.ova") (lit "qcow2") (some (lit "x"))).toOption.isSome := by decide +kernel

/-- The theorem applies to the sample world. -/
example : ∃ e, [(⟨lit "m", [1, 1]⟩ : TarEntry), ⟨lit "m", [0, 2, 0, 0, 0, 6, 0]⟩, ⟨lit "x", [5]⟩].reverse.find? (fun e => e.name = lit "m") = some e ∧
    ∃ content, Guest (fun _ _ _ => []) (lit "/a.ova") (lit "raw") e.data true content ∧
      blockChecksum sampleDigest 2 [0, 2, 0, 0, 0, 6, 0] = blockChecksum sampleDigest 2 content := by
  obtain ⟨e, h1, h2⟩ := C78_checksum_member (blockSize := 2) sampleWorld_info sampleWorld_nbd sampleWorld_tar
    (name := lit "m") (by decide) (by decide) (by
      intro srv E s h
      simp only [sampleWorld] at h
      split at h
      · cases h
        decide
      · cases h) (func := sampleDigest) (detect := false) (sock := .unix [])
    (show checksum sampleWorld (.unix []) (lit "/a.ova") (some (lit "m")) 2 sampleDigest false =
      .ok (blockChecksum sampleDigest 2 [0, 2, 0, 0, 0, 6, 0]) by decide +kernel)
  exact ⟨e, h1, h2 (.inl rfl)⟩

end Imageio.Props
