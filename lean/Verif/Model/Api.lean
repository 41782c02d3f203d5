import Verif.Model.ClientIo
import Verif.Spec.Chain
/-!
Model of uploads and downloads, `ovirt_imageio/client/_api.py`, and of the preparation of the
`upload-disk` command, `ovirt_imageio/client/_upload.py`.

The copy itself is `Model/ClientIo.lean`.  `qemu-img`, `qemu-nbd` and tar files are not modelled: the
source is a function from offsets to bytes with its extents.
-/
namespace Imageio.Api
open Imageio.Extents Imageio.Io Imageio.Spec

/-- `client/_io.py:48-56`: one worker, and `max_workers - 1` more. -/
def copyWorkers (maxWorkers : Int) : Nat := 1 + (maxWorkers - 1).toNat

/-- `client/_api.py:83`, `173` the number of workers, limited by what the server allows. -/
def limitWorkers (allowed maxWorkers : Int) : Int := min allowed maxWorkers

/-- `client/_io.py:42-56`: every worker clones the source, and the source itself is used for the
extents; the first worker uses the destination itself, and the others clone it. -/
def srcConnections (maxWorkers : Int) : Nat := 1 + copyWorkers maxWorkers
/-- The connections to the destination: the one of `copy` that the first worker uses through a wrapper, and a clone for each other worker, `client/_io.py:48-56`. -/
def dstConnections (maxWorkers : Int) : Nat := copyWorkers maxWorkers

/-- `client/_api.py:94` the connections that the local `qemu-nbd` accepts in an upload. -/
def uploadShared (maxWorkers : Int) : Int := maxWorkers + 1

/-- `client/_api.py:176` the connections that the local `qemu-nbd` accepts in a download. -/
def downloadShared (maxWorkers : Int) : Int := maxWorkers

/-- `client/_api.py:100-115` what an upload does with the extents of the source. -/
def uploadActs (backingChain diskIsZero : Bool) (exts : List ZeroExtent) : List Act :=
  copyData (!(diskIsZero && backingChain)) backingChain exts

/-- `client/_api.py:151-154` -/
def downloadAllowed (fmt : Format) (incremental : Bool) : Bool := !(incremental && fmt != .qcow2)

/-- `client/_api.py:179-193` what a download does with the extents of the source. -/
def downloadActs (incremental backingFile : Bool) (exts : List ZeroExtent) (dirty : List DirtyExtent) :
    List Act :=
  if incremental then copyDirty dirty else copyData backingFile false exts

/-- `client/_api.py:514-526` `_open_http`: the URL of the backend that is used.  `openTransfer` and
`openProxy` are the results of `http.open`; the backend is the one of the URL. -/
def openHttp (openTransfer openProxy : Except Err Unit) (transferUrl : String) (proxyUrl : Option String) :
    Except Err String :=
  match openTransfer with
  | .ok () => .ok transferUrl
  | .error (.os n) =>
    match proxyUrl with
    | none => .error (.os n)
    | some url => openProxy.map fun _ => url
  | .error e => .error e

/-! ## `_upload.py` -/

/-- The content types of a disk, `client/_upload.py:124`, `129`. -/
inductive ContentType where
  | iso | data
deriving DecidableEq, Repr

/-- The parts of `qemu-img info` that are used.  `client/_upload.py:117-130`. -/
structure ImageInfo where
  format : String
  virtualSize : Nat
deriving DecidableEq, Repr

/-- The arguments of `upload-disk` that are used by `_prepare`.  `client/_upload.py:116-153`. -/
structure UploadArgs where
  format : Format
  sparse : Bool
deriving DecidableEq, Repr

/-- `client/_upload.py:18-20` `DiskInfo`; the name is not modelled. -/
structure DiskInfo where
  initialSize : Option Nat
  provisionedSize : Nat
  contentType : ContentType
  format : Format
  sparse : Bool
  isZero : Bool
deriving DecidableEq, Repr

/-- `client/_upload.py:156-181` `_is_iso`; `file` is the content of the file.  Reading after the end
returns less bytes. -/
def isIso (file : Bytes) (format : String) : Bool :=
  if format = "raw" then
    (file.drop 0x8000).take 8 == [0x01, 0x43, 0x44, 0x30, 0x30, 0x31, 0x01, 0x00]
  else false

/-- `client/_upload.py:116-153` `_prepare`; `required` is the result of `qemu-img measure`. -/
def prepare (info : ImageInfo) (file : Bytes) (args : UploadArgs) (required : Nat) : Except Err DiskInfo :=
  if info.format ≠ "raw" ∧ info.format ≠ "qcow2" then .error (.exception "RuntimeError")
  else
    let iso := isIso file info.format
    let format := if iso then .raw else args.format
    let sparse := if iso then false else args.sparse
    .ok { initialSize := if format = .qcow2 ∧ sparse then some required else none
          provisionedSize := info.virtualSize
          contentType := if iso then .iso else .data
          format := format
          sparse := sparse
          isZero := format == .qcow2 || sparse }

end Imageio.Api
