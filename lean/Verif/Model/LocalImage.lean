import Verif.Model.QemuNbd
import Verif.Model.NbdWire
import Verif.Model.Blkhash
/-!
Model of `ovirt_imageio/_internal/qemu_img.py`, and of the functions of `ovirt_imageio/client/_api.py`
for local images: `info`, `measure`, `checksum`, `extents`, and the source of `upload`.

The programs `qemu-img` and `qemu-nbd` and the library `tarfile` are outside: any machines.
-/
namespace Imageio.LocalImage
open Imageio.Http Imageio.Images Imageio.Extents
open Imageio.QemuNbd (jsonUri)

/-! ## `qemu_img.py`: the commands -/

/-- `qemu_img.py:24-36` `create`.  For the backing file and its format the empty string is false. -/
def createCmd (path fmt : Str) (size : Option Nat) (backingFile backingFormat : Option Str) (quiet : Bool) : List Str :=
  [lit "qemu-img", lit "create", lit "-f", fmt] ++
    (match backingFile.getD [] with
      | [] => []
      | b => [lit "-b", b] ++
        (match backingFormat.getD [] with
          | [] => []
          | f => [lit "-F", f])) ++
    (if quiet then [lit "-q"] else []) ++ [path] ++
    (match size with
      | none => []
      | some n => [fmtInt n])

/-- `qemu_img.py:39-46` `convert` -/
def convertCmd (src dst srcFmt dstFmt : Str) (progress compressed : Bool) : List Str :=
  [lit "qemu-img", lit "convert", lit "-f", srcFmt, lit "-O", dstFmt] ++ (if progress then [lit "-p"] else []) ++
    (if compressed then [lit "-c"] else []) ++ [src, dst]

/-- `qemu_img.py:49-51` `unsafe_rebase` -/
def rebaseCmd (path backing backingFmt : Str) : List Str :=
  [lit "qemu-img", lit "rebase", lit "-u", lit "-b", backing, lit "-F", backingFmt, path]

/-- `qemu_img.py:54-55` -/
def infoCmd (path : Str) : List Str := [lit "qemu-img", lit "info", lit "--output", lit "json", path]

/-- `qemu_img.py:60-61` -/
def measureCmd (path outFmt : Str) : List Str :=
  [lit "qemu-img", lit "measure", lit "--output", lit "json", lit "-O", outFmt, path]

/-- The option `-x value` if the value is true.  `qemu_img.py:72-78`. -/
def shortOpt (name : String) : Option Str → List Str
  | none => []
  | some [] => []
  | some v => [lit name, v]

/-- `qemu_img.py:66-81` the command of `compare` -/
def compareCmd (a b : Str) (format1 format2 : Option Str) (strict : Bool) : List Str :=
  [lit "qemu-img", lit "compare"] ++ (if strict then [lit "-s"] else []) ++ shortOpt "-f" format1 ++
    shortOpt "-F" format2 ++ [a, b]

/-- `qemu_img.py:95-96` `bitmap_add` -/
def bitmapAddCmd (path bitmap : Str) : List Str := [lit "qemu-img", lit "bitmap", lit "--add", path, bitmap]

/-- `subprocess.check_call` and `check_output`, with the exit code of the process.  `qemu_img.py:36`, `46`, `51`,
`56`, `62`, `97`. -/
def checkCode (code : Int) : Except Err Unit :=
  if code = 0 then .ok () else .error (.exception "CalledProcessError")

/-- `qemu_img.py:83-92` the end of `compare`, with the exit code of the process. -/
def compareResult (code : Int) : Except Err Unit :=
  if code = 0 then .ok ()
  else if code = 1 then .error (.exception "ContentMismatch")
  else if code = 2 then .error (.exception "OpenImageError")
  else .error (.exception "RuntimeError")

/-! ## What is outside -/

/-- A python dict with strings as keys.  `client/_api.py:207-209`, `225-227`. -/
abbrev Dict := List (Str × Json)

/-- `d[key] = value`, `client/_api.py:208-209`, `226-227`. -/
def Dict.set (d : Dict) (key : Str) (value : Json) : Dict :=
  if d.any fun f => f.1 = key then d.map fun f => if f.1 = key then (key, value) else f
  else d ++ [(key, value)]

/-- `d.get(key)`; `none` is also `KeyError` of `d[key]`.  `client/_api.py:256-259`, `283-287`. -/
def Dict.get (d : Dict) (key : Str) : Option Json := (d.find? fun f => f.1 = key).map (·.2)

/-- What `_find_member` uses of a member of a tar file, `client/_api.py:465`. -/
structure Member where
  name : Str
  offsetData : Nat
  size : Nat
deriving DecidableEq, Repr

/-- What is outside: `tarfile.open` (`client/_api.py:463`, the members of the archive), the program
`qemu-img` (exit code and output of a command, `qemu_img.py:56`, `62`), `json.loads` of an object
(`qemu_img.py:57`, `63`), `json.dumps` (`client/_api.py:482`), and a running `qemu-nbd` with an open
NBD backend (`client/_api.py:493-511`). -/
structure World (τ : Type) where
  tar : Str → Except Err (List Member)
  qemuImg : List Str → Except Err (Int × Str)
  loads : Str → Except Err Dict
  dumps : Json → Str
  openNbd : QemuNbd.Server → Except Err (NbdWire.Env τ × NbdWire.State τ)

variable {τ : Type}

/-- A command of qemu-img with JSON output.  `qemu_img.py:54-57`, `60-63`. -/
def World.query (W : World τ) (cmd : List Str) : Except Err Dict :=
  match W.qemuImg cmd with
  | .error e => .error e
  | .ok (code, out) =>
    match checkCode code with
    | .error e => .error e
    | .ok () => W.loads out

/-! ## `client/_api.py` -/

/-- `client/_api.py:462-465` `_find_member`.  `TarFile.getmember` returns the last member with the name;
removing of slashes at the end of the name is not modelled. -/
def findMember (W : World τ) (tarname name : Str) : Except Err (Nat × Nat) :=
  match W.tar tarname with
  | .error e => .error e
  | .ok members =>
    match members.reverse.find? fun m => m.name = name with
    | none => .error (.exception "KeyError")
    | some m => .ok (m.offsetData, m.size)

/-- The JSON URI of a member, `client/_api.py:468-482`; `dumps` is `json.dumps`. -/
def memberUri (W : World τ) (filename : Str) (offset size : Nat) : Str :=
  lit "json:" ++ W.dumps (jsonUri filename offset size)

/-- `client/_api.py:204-212` and `222-230`: the same code with another command. -/
def describe (W : World τ) (cmd : Str → List Str) (filename : Str) (member : Option Str) : Except Err Dict :=
  match member.getD [] with
  | [] => W.query (cmd filename)
  | name =>
    match findMember W filename name with
    | .error e => .error e
    | .ok (offset, size) =>
      match W.query (cmd (memberUri W filename offset size)) with
      | .error e => .error e
      | .ok d => .ok ((d.set (lit "member-offset") (.int offset)).set (lit "member-size") (.int size))

/-- `client/_api.py:196-212` `info` -/
def info (W : World τ) (filename : Str) (member : Option Str) : Except Err Dict :=
  describe W infoCmd filename member

/-- `client/_api.py:215-230` `measure` -/
def measure (W : World τ) (filename dstFmt : Str) (member : Option Str) : Except Err Dict :=
  describe W (fun path => measureCmd path dstFmt) filename member

/-- The integer of a field, or `None`.  `client/_api.py:258-259`. -/
def intOf : Option Json → Option Int
  | some (.int n) => some n
  | _ => none

/-- The arguments of `qemu_nbd.run` for reading an image described by `d`: `client/_api.py:254-259`,
`281-287`, `90-97`, and `486-509`.  A format that is not a string is not modelled. -/
def sourceServer (sock : Url.Address) (filename : Str) (d : Dict) (shared : Int) (bitmap : Option Str)
    (backingChain : Bool) : Except Err QemuNbd.Server :=
  match d.get (lit "format") with
  | some (.str fmt) => .ok
      { image := filename, fmt := fmt, sock := sock, readOnly := true, shared := shared, bitmap := bitmap,
        backingChain := backingChain, offset := intOf (d.get (lit "member-offset")),
        size := intOf (d.get (lit "member-size")) }
  | _ => .error (.exception "KeyError")

/-- `client/_api.py:251-259`, `278-287`, `87-97`: the open source. -/
def openSource (W : World τ) (sock : Url.Address) (filename : Str) (member : Option Str) (shared : Int)
    (bitmap : Option Str) (backingChain : Bool) : Except Err (NbdWire.Env τ × NbdWire.State τ) :=
  match info W filename member with
  | .error e => .error e
  | .ok d =>
    match sourceServer sock filename d shared bitmap backingChain with
    | .error e => .error e
    | .ok s => W.openNbd s

/-- `client/_api.py:233-262` `checksum`, with the digest function of the algorithm.  Simplification: all
the extents are requested before the first block is read (`checksum.py:126` asks for more of them between
the blocks). -/
def checksum (W : World τ) (sock : Url.Address) (filename : Str) (member : Option Str) (blockSize : Nat)
    (func : Bytes → Bytes) (detect : Bool) : Except Err Bytes :=
  match openSource W sock filename member 1 none true with
  | .error e => .error e
  | .ok (E, s) =>
    match NbdWire.zeroExtents E s with
    | (.error e, _) => .error e
    | (.ok es, s) => (Blkhash.opRun (NbdWire.backend E) func detect (fun _ => false) es (zeros blockSize) s).1

/-- `client/_api.py:265-289` `extents` without a bitmap. -/
def zeroExtents (W : World τ) (sock : Url.Address) (filename : Str) (member : Option Str) :
    Except Err (List ZeroExtent) :=
  match openSource W sock filename member 1 none true with
  | .error e => .error e
  | .ok (E, s) => (NbdWire.zeroExtents E s).1

/-- `client/_api.py:265-289` `extents` with a bitmap. -/
def dirtyExtents (W : World τ) (sock : Url.Address) (filename : Str) (member : Option Str) (bitmap : Str) :
    Except Err (List DirtyExtent) :=
  match openSource W sock filename member 1 (some bitmap) true with
  | .error e => .error e
  | .ok (E, s) => (NbdWire.dirtyExtents E s).1

end Imageio.LocalImage
