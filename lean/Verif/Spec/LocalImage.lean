import Verif.Spec.QemuNbd
import Verif.Spec.Disk
import Verif.Spec.Chain
/-!
Command lines of qemu-img, tar archives, and what the guest sees in a local image.
-/
namespace Imageio.Spec
open Imageio.Images Imageio.Http

/-- The options of qemu-img that are used: `true` for those with a value. -/
def imgOption (name : Str) : Option Bool :=
  if name ∈ ["f", "b", "F", "O", "output"].map String.toList then some true
  else if name ∈ ["q", "p", "c", "u", "s", "add"].map String.toList then some false
  else none

/-- The options with their values, and the other arguments; `getopt_long` of the C library, that finds
options everywhere up to `--`.  Groups of options and `--name=value` are not used; they are refused here. -/
def getopt : List Str → Option (List (Str × Option Str) × List Str)
  | [] => some ([], [])
  | ['-', '-'] :: rest => some ([], rest)
  | ('-' :: '-' :: c :: name) :: rest =>
    match imgOption (c :: name), rest with
    | some true, v :: rest => (getopt rest).map fun r => ((c :: name, some v) :: r.1, r.2)
    | some false, rest => (getopt rest).map fun r => ((c :: name, none) :: r.1, r.2)
    | _, _ => none
  | ['-', c] :: rest =>
    match imgOption [c], rest with
    | some true, v :: rest => (getopt rest).map fun r => (([c], some v) :: r.1, r.2)
    | some false, rest => (getopt rest).map fun r => (([c], none) :: r.1, r.2)
    | _, _ => none
  | ('-' :: c :: more) :: rest =>
    match imgOption [c] with
    | some true => (getopt rest).map fun r => (([c], some more) :: r.1, r.2)
    | _ => none
  | a :: rest => (getopt rest).map fun r => (r.1, a :: r.2)

/-- A command of qemu-img: the subcommand, the options, the other arguments. -/
def imgCommand : List Str → Option (Str × List (Str × Option Str) × List Str)
  | prog :: sub :: args =>
    if prog = "qemu-img".toList then (getopt args).map fun r => (sub, r.1, r.2) else none
  | _ => none

/-! ## Names of images -/

/-- How qemu understands the name of an image: block nodes in JSON, or a protocol before a colon (without
a slash before it), or a file. -/
inductive ImageName where
  | json (text : Str)
  | protocol (name rest : Str)
  | file (path : Str)
deriving DecidableEq, Repr

def imageName (s : Str) : ImageName :=
  let p := s.takeWhile fun c => c ≠ ':' ∧ c ≠ '/'
  match s.drop p.length with
  | ':' :: rest => if p = "json".toList then .json rest else .protocol p rest
  | _ => .file s

/-! ## Tar archives -/

/-- A file in an archive. -/
structure TarEntry where
  name : Str
  data : Bytes
deriving DecidableEq, Repr

/-- The zeroes after the data of a file. -/
def tarPad (n : Nat) : Nat := (512 - n % 512) % 512

/-- The bytes of an archive: for every file the headers (which depend on the format of the archive), the
data, and zeroes up to a multiple of 512. -/
def tarBytes (header : TarEntry → Bytes) : List TarEntry → Bytes
  | [] => []
  | e :: es => header e ++ e.data ++ zeros (tarPad e.data.length) ++ tarBytes header es

/-- The name, the place of the data, and the size of every file. -/
def tarPlaces (header : TarEntry → Bytes) (start : Nat) : List TarEntry → List (Str × Nat × Nat)
  | [] => []
  | e :: es => (e.name, start + (header e).length, e.data.length) ::
      tarPlaces header (start + (header e ++ e.data ++ zeros (tarPad e.data.length)).length) es

/-! ## What the guest sees -/

/-- The bytes of a region. -/
def Region.bytes (files : Str → Bytes) (r : Region) : Bytes := ((files r.file).drop r.start.toNat).take r.size.toNat

/-- The content of a view; `qcow2` is the content of a qcow2 image in these bytes of this file, with its
backing chain or without. -/
def View.content (files : Str → Bytes) (qcow2 : Str → Bytes → Bool → Bytes) : View → Bytes
  | .raw r => r.bytes files
  | .qcow2 r chain => qcow2 r.file (r.bytes files) chain

end Imageio.Spec
